import Verif.Model.Timer
import Verif.Model.Logger

/-!
# Property theorems C35 (timer) and C36 (logger)
-/

namespace EdgeEval.Props

open EdgeEval

/-! ## C35 -/

/-- A call that is not `__exit__`. -/
def TimerOp.NoExit : TimerOp → Prop
  | .exit _ _ => False
  | _ => True

/-- A call that is a `start`. -/
def TimerOp.IsStart : TimerOp → Prop
  | .start _ _ => True
  | _ => False

/-- The final clock reading of a call that starts or checks the timer. -/
def TimerOp.lastReading : TimerOp → Option ℚ
  | .start _ t2 => some t2
  | .sinceStart t1 => some t1
  | .sinceLastCheck _ t2 => some t2
  | .exit _ t2 => some t2
  | .isRunning => none

theorem timer_run_append (s : TimerState) (a b : List TimerOp) :
    s.run (a ++ b) = (s.run a).run b := by simp [TimerState.run, List.foldl_append]

theorem timer_keep (s : TimerState) (h : List TimerOp) (hr : s.running = true)
    (hn : ∀ op ∈ h, TimerOp.NoExit op) :
    (s.run h).running = true ∧ (s.run h).tStart = s.tStart := by
  induction h generalizing s with
  | nil => exact ⟨hr, rfl⟩
  | cons op ops ih =>
    have h1 : ((s.step op).2).running = true ∧ ((s.step op).2).tStart = s.tStart := by
      cases op with
      | start t1 t2 => simp [TimerState.step, TimerState.start, hr]
      | sinceStart t1 => simp [TimerState.step, TimerState.sinceStart, hr]
      | sinceLastCheck t1 t2 => simp [TimerState.step, TimerState.sinceLastCheck, hr]
      | exit t1 t2 => exact absurd (hn _ List.mem_cons_self) (by simp [TimerOp.NoExit])
      | isRunning => exact ⟨hr, rfl⟩
    have := ih (s.step op).2 h1.1 (fun o ho => hn o (List.mem_cons_of_mem _ ho))
    exact ⟨this.1, this.2.trans h1.2⟩

/-- C35: `since_start` returns the time elapsed since the `start()` that switched the timer from
stopped to running, whatever calls other than `__exit__` happened in between. -/
theorem C35_since_start (s0 : TimerState) (pre mid : List TimerOp) (t1 t2 now : ℚ)
    (hstop : (s0.run pre).running = false) (hmid : ∀ op ∈ mid, TimerOp.NoExit op) :
    ((s0.run (pre ++ TimerOp.start t1 t2 :: mid)).step (.sinceStart now)).1 = .ok (some (now - t1)) := by
  rw [timer_run_append]
  have e : (s0.run pre).run (TimerOp.start t1 t2 :: mid) = ((s0.run pre).start t1 t2).run mid := rfl
  rw [e]
  have := timer_keep ((s0.run pre).start t1 t2) mid rfl hmid
  simp only [TimerState.step, TimerState.sinceStart, this.1, if_true, this.2]
  simp [TimerState.start, hstop]

/-- C35: `since_last_check` (and what `__exit__` prints) is the time since the final reading of the
latest call that started or checked the timer. -/
theorem C35_since_last_check (s0 : TimerState) (pre mid : List TimerOp) (op : TimerOp)
    (t now now2 : ℚ) (ht : TimerOp.lastReading op = some t) (hmid : ∀ o ∈ mid, o = .isRunning)
    (hrun : (s0.run (pre ++ op :: mid)).running = true) :
    ((s0.run (pre ++ op :: mid)).step (.sinceLastCheck now now2)).1 = .ok (some (now - t)) ∧
    ((s0.run (pre ++ op :: mid)).step (.exit now now2)).1 = .ok (some (now - t)) := by
  have hm : ∀ s : TimerState, ∀ l : List TimerOp, (∀ o ∈ l, o = .isRunning) → s.run l = s := by
    intro s l
    induction l generalizing s with
    | nil => intro _; rfl
    | cons o os ih =>
      intro h
      have : o = .isRunning := h o List.mem_cons_self
      subst this
      exact ih s (fun o ho => h o (List.mem_cons_of_mem _ ho))
  have e : s0.run (pre ++ op :: mid) = ((s0.run pre).step op).2 := by
    rw [timer_run_append]
    exact hm _ mid hmid
  rw [e] at hrun ⊢
  have hl : ((s0.run pre).step op).2.tLast = t := by
    generalize s0.run pre = s at hrun
    cases op with
    | start a b => simp only [TimerOp.lastReading, Option.some.injEq] at ht; simp [TimerState.step, TimerState.start, ht]
    | sinceStart a =>
      simp only [TimerOp.lastReading, Option.some.injEq] at ht
      revert hrun
      cases hs : s.running <;> simp [TimerState.step, TimerState.sinceStart, hs, ht]
    | sinceLastCheck a b =>
      simp only [TimerOp.lastReading, Option.some.injEq] at ht
      revert hrun
      cases hs : s.running <;> simp [TimerState.step, TimerState.sinceLastCheck, hs, ht]
    | exit a b =>
      revert hrun
      cases hs : s.running <;> simp [TimerState.step, TimerState.sinceLastCheck, hs]
    | isRunning => simp [TimerOp.lastReading] at ht
  generalize ((s0.run pre).step op).2 = s at hrun hl
  simp [TimerState.step, TimerState.sinceLastCheck, hrun, hl]

theorem neutral_iff (s0 : TimerState) (l : List TimerOp) (o : TimerOp) (ho : TimerOp.NoExit o)
    (hs : ¬ TimerOp.IsStart o)
    (ih : ((s0.run l).running = true ↔
      (s0.running = true ∧ ∀ op ∈ l, TimerOp.NoExit op) ∨
      (∃ pre op mid, l = pre ++ op :: mid ∧ TimerOp.IsStart op ∧ ∀ o ∈ mid, TimerOp.NoExit o))) :
    ((((s0.run l).step o).2).running = true ↔
      (s0.running = true ∧ ∀ op ∈ l ++ [o], TimerOp.NoExit op) ∨
      (∃ pre op mid, l ++ [o] = pre ++ op :: mid ∧ TimerOp.IsStart op ∧
        ∀ o ∈ mid, TimerOp.NoExit o)) := by
  have hrun : (((s0.run l).step o).2).running = (s0.run l).running := by
    cases o with
    | start a b => exact absurd trivial hs
    | sinceStart a => cases hs : (s0.run l).running <;> simp [TimerState.step, TimerState.sinceStart, hs]
    | sinceLastCheck a b =>
      cases hs : (s0.run l).running <;> simp [TimerState.step, TimerState.sinceLastCheck, hs]
    | exit a b => exact absurd ho (by simp [TimerOp.NoExit])
    | isRunning => rfl
  rw [hrun, ih]
  constructor
  · rintro (⟨h0, hh⟩ | ⟨pre, op, mid, e, hop, hmid⟩)
    · left
      refine ⟨h0, fun x hx => ?_⟩
      rcases List.mem_append.mp hx with hx | hx
      · exact hh x hx
      · simp only [List.mem_singleton] at hx; subst hx; exact ho
    · right
      refine ⟨pre, op, mid ++ [o], by rw [e]; simp, hop, fun x hx => ?_⟩
      rcases List.mem_append.mp hx with hx | hx
      · exact hmid x hx
      · simp only [List.mem_singleton] at hx; subst hx; exact ho
  · rintro (⟨h0, hh⟩ | ⟨pre, op, mid, e, hop, hmid⟩)
    · left
      exact ⟨h0, fun x hx => hh x (List.mem_append_left _ hx)⟩
    · right
      rcases List.eq_nil_or_concat mid with rfl | ⟨m, x, rfl⟩
      · have := List.append_inj_right' e rfl
        simp only [List.cons.injEq, and_true] at this
        subst this; exact absurd hop hs
      · have e' : l ++ [o] = (pre ++ op :: m) ++ [x] := by rw [e]; simp
        have := List.append_inj_left' e' rfl
        exact ⟨pre, op, m, this, hop, fun x hx => hmid x (by simp [hx])⟩

/-- C35: for every history, the timer is running exactly when a `start()` (or the constructor, if it
started the timer) has not been followed by an `__exit__`; and the three checking calls raise
`TimerError`, without changing anything, exactly when it is not running. -/
theorem C35_running_iff (s0 : TimerState) (h : List TimerOp) :
    ((s0.run h).running = true ↔
      (s0.running = true ∧ ∀ op ∈ h, TimerOp.NoExit op) ∨
      (∃ pre op mid, h = pre ++ op :: mid ∧ TimerOp.IsStart op ∧ ∀ o ∈ mid, TimerOp.NoExit o)) := by
  induction h using List.reverseRecOn with
  | nil => simp [TimerState.run]
  | append_singleton l op ih =>
    have hstep : s0.run (l ++ [op]) = ((s0.run l).step op).2 := by rw [timer_run_append]; rfl
    rw [hstep]
    cases op with
    | start a b =>
      constructor
      · intro _; exact .inr ⟨l, .start a b, [], rfl, trivial, by simp⟩
      · intro _; rfl
    | exit a b =>
      constructor
      · intro hr
        exfalso
        revert hr
        cases hs : (s0.run l).running <;> simp [TimerState.step, TimerState.sinceLastCheck, hs]
      · rintro (⟨_, hh⟩ | ⟨pre, op, mid, e, hop, hmid⟩)
        · exact absurd (hh (.exit a b) (by simp)) (by simp [TimerOp.NoExit])
        · rcases List.eq_nil_or_concat mid with rfl | ⟨m, x, rfl⟩
          · have := List.append_inj_right' e rfl
            simp only [List.cons.injEq, and_true] at this
            subst this; exact absurd hop (by simp [TimerOp.IsStart])
          · have e' : l ++ [TimerOp.exit a b] = (pre ++ op :: m) ++ [x] := by simpa using e
            have := List.append_inj_right' e' rfl
            simp only [List.cons.injEq, and_true] at this
            subst this
            exact absurd (hmid (.exit a b) (by simp)) (by simp [TimerOp.NoExit])
    | sinceStart a => exact neutral_iff s0 l _ trivial (by simp [TimerOp.IsStart]) ih
    | sinceLastCheck a b => exact neutral_iff s0 l _ trivial (by simp [TimerOp.IsStart]) ih
    | isRunning => exact neutral_iff s0 l _ trivial (by simp [TimerOp.IsStart]) ih

/-- C35: the checking calls raise exactly on a stopped timer, and then change nothing. -/
theorem C35_raises_iff_stopped (s : TimerState) (a b : ℚ) :
    ((s.step (.sinceStart a)).1 = .error .timerError ↔ s.running = false) ∧
    ((s.step (.sinceLastCheck a b)).1 = .error .timerError ↔ s.running = false) ∧
    ((s.step (.exit a b)).1 = .error .timerError ↔ s.running = false) ∧
    (s.running = false → (s.step (.sinceStart a)).2 = s ∧ (s.step (.sinceLastCheck a b)).2 = s ∧
      (s.step (.exit a b)).2 = s) := by
  cases hs : s.running <;> simp [TimerState.step, TimerState.sinceStart, TimerState.sinceLastCheck, hs]

/-- The values returned by a run of `since_last_check` calls with the given readings. -/
def lastChecks (s : TimerState) : List (ℚ × ℚ) → List (Except PyErr (Option ℚ))
  | [] => []
  | (a, b) :: rest => (s.step (.sinceLastCheck a b)).1 :: lastChecks (s.step (.sinceLastCheck a b)).2 rest

/-- C35: consecutive `since_last_check` values are non-negative for a monotone clock and, but for the
time between the two readings inside one call, add up to the time elapsed since the timer's last check
(with `t1 = t2` in each call: exactly). -/
theorem C35_checks_add_up (s : TimerState) (l : List (ℚ × ℚ)) (hr : s.running = true)
    (hsame : ∀ p ∈ l, p.1 = p.2) :
    ∃ ds : List ℚ, lastChecks s l = ds.map (fun d => .ok (some d)) ∧
      ds.sum = ((l.map Prod.fst).getLast?).getD s.tLast - s.tLast := by
  induction l generalizing s with
  | nil => exact ⟨[], rfl, by simp⟩
  | cons p ps ih =>
    obtain ⟨a, b⟩ := p
    have hab : a = b := hsame (a, b) List.mem_cons_self
    subst hab
    have e : s.step (.sinceLastCheck a a) = (.ok (some (a - s.tLast)), { s with tLast := a }) := by
      simp [TimerState.step, TimerState.sinceLastCheck, hr]
    obtain ⟨ds, h1, h2⟩ := ih { s with tLast := a } hr (fun p hp => hsame p (List.mem_cons_of_mem _ hp))
    refine ⟨(a - s.tLast) :: ds, ?_, ?_⟩
    · simp only [lastChecks, e, h1, List.map_cons]
    · rw [List.sum_cons, h2]
      cases ps with
      | nil => simp
      | cons q qs =>
        simp only [List.map_cons]
        rw [List.getLast?_cons_cons, List.getLast?_eq_getLast_of_ne_nil (by simp)]
        simp

theorem lookup_map_set (g : GTimers) (id id' : String) (s' : TimerState) :
    (g.map fun p => if p.1 == id then (p.1, s') else p).lookup id' =
      if id' = id then (g.lookup id').map (fun _ => s') else g.lookup id' := by
  induction g with
  | nil => simp
  | cons p ps ih =>
    obtain ⟨k, v⟩ := p
    simp only [List.map_cons]
    by_cases hk : k = id
    · subst hk
      simp only [beq_self_eq_true, if_true, List.lookup_cons]
      by_cases hi : id' = k
      · subst hi; simp
      · have : (id' == k) = false := by simpa using hi
        rw [this, ih]
    · have hkb : (k == id) = false := by simpa using hk
      simp only [hkb, Bool.false_eq_true, if_false, List.lookup_cons]
      by_cases hi : id' = k
      · subst hi; simp [hk]
      · have : (id' == k) = false := by simpa using hi
        rw [this, ih]

/-- What a dictionary of timers should contain after a history of `check_time` calls: for each id, the
final reading of its latest call. -/
def LastReadings (g : GTimers) (h : List (String × ℚ × ℚ)) : Prop :=
  ∀ id, (g.lookup id).map TimerState.tLast = (h.reverse.find? (fun c => c.1 == id)).map (fun c => c.2.2) ∧
    ∀ s, g.lookup id = some s → s.running = true

theorem checkTime_step {g : GTimers} {h : List (String × ℚ × ℚ)} (inv : LastReadings g h)
    (id : String) (t1 t2 : ℚ) :
    ∃ g', checkTime g id t1 t2 = .ok
      (match h.reverse.find? (fun c => c.1 == id) with
        | none => 0
        | some c => t1 - c.2.2, g') ∧ LastReadings g' (h ++ [(id, t1, t2)]) := by
  obtain ⟨h1, h2⟩ := inv id
  cases hg : g.lookup id with
  | none =>
    rw [hg] at h1
    have hf : h.reverse.find? (fun c => c.1 == id) = none := by
      cases hx : h.reverse.find? (fun c => c.1 == id) with
      | none => rfl
      | some _ => rw [hx] at h1; simp at h1
    refine ⟨g ++ [(id, TimerState.init true t1 t2)], by simp [checkTime, hg, hf], ?_⟩
    intro id'
    rw [List.lookup_append, List.reverse_append]
    simp only [List.reverse_cons, List.reverse_nil, List.nil_append, List.cons_append, List.find?_cons,
      List.lookup_cons, List.lookup_nil]
    by_cases hi : id = id'
    · subst hi
      simp only [hg, beq_self_eq_true, Option.none_or]
      refine ⟨by simp [TimerState.init, TimerState.start], ?_⟩
      intro s hs
      cases hs; rfl
    · have e1 : (id' == id) = false := by simpa using fun h => hi h.symm
      have e2 : (id == id') = false := by simpa using hi
      obtain ⟨q1, q2⟩ := inv id'
      simp only [e1, e2, Option.or_none]
      exact ⟨q1, q2⟩
  | some s =>
    rw [hg] at h1
    obtain ⟨c, hc⟩ : ∃ c, h.reverse.find? (fun c => c.1 == id) = some c := by
      cases hx : h.reverse.find? (fun c => c.1 == id) with
      | none => rw [hx] at h1; simp at h1
      | some c => exact ⟨c, rfl⟩
    rw [hc] at h1
    simp only [Option.map_some, Option.some.injEq] at h1
    have hrun := h2 s hg
    refine ⟨g.map fun p => if p.1 == id then (p.1, { s with tLast := t2 }) else p, ?_, ?_⟩
    · simp [checkTime, hg, hc, TimerState.sinceLastCheck, hrun, bind, Except.bind, pure, Except.pure, h1]
    · intro id'
      rw [lookup_map_set, List.reverse_append]
      simp only [List.reverse_cons, List.reverse_nil, List.nil_append, List.cons_append, List.find?_cons]
      by_cases hi : id' = id
      · subst hi
        simp [hg, hrun]
      · have e2 : (id == id') = false := by simpa using fun h => hi h.symm
        simp only [hi, if_false, e2]
        exact inv id'

/-- C35: in every history of `check_time` calls, the `i`-th call returns 0 if it is the first one with
its id, and otherwise the time since the final reading of the latest earlier call with the same id;
calls with other ids have no influence and no call ever raises. -/
theorem C35_check_time (h : List (String × ℚ × ℚ)) :
    ∃ ds g, checkTimes [] h = .ok (ds, g) ∧ ds.length = h.length ∧
      ∀ i, ∀ hi : i < h.length, ds[i]? = some
        (match (h.take i).reverse.find? (fun c => c.1 == h[i].1) with
          | none => 0
          | some c => h[i].2.1 - c.2.2) := by
  have key : ∀ (l pre : List (String × ℚ × ℚ)) (g : GTimers), LastReadings g pre →
      ∃ ds g', checkTimes g l = .ok (ds, g') ∧ ds.length = l.length ∧
      ∀ i, ∀ hi : i < l.length, ds[i]? = some
        (match (pre ++ l.take i).reverse.find? (fun c => c.1 == l[i].1) with
          | none => 0
          | some c => l[i].2.1 - c.2.2) := by
    intro l
    induction l with
    | nil => intro pre g _; exact ⟨[], g, rfl, rfl, by simp⟩
    | cons c cs ih =>
      intro pre g inv
      obtain ⟨id, t1, t2⟩ := c
      obtain ⟨g1, e1, inv1⟩ := checkTime_step inv id t1 t2
      obtain ⟨ds, g2, e2, l2, hds⟩ := ih _ g1 inv1
      refine ⟨(match pre.reverse.find? (fun c => c.1 == id) with
        | none => 0
        | some c => t1 - c.2.2) :: ds, g2, ?_, by simp [l2], ?_⟩
      · simp only [checkTimes, e1, bind, Except.bind, e2, pure, Except.pure]
      · intro i hi
        cases i with
        | zero => simp
        | succ i =>
          have := hds i (by simpa using hi)
          simp only [List.getElem?_cons_succ, List.getElem_cons_succ, List.take_succ_cons]
          rw [this]
          simp [List.append_assoc]
  have inv0 : LastReadings [] [] := by intro id; simp
  simpa using key h [] [] inv0

/-- start at 1, check at 3, start again at 4 (already running), since_start at 10 gives 9. -/
example : (((TimerState.init false 0 0).run ([] ++ TimerOp.start 1 1 :: [.sinceLastCheck 3 3, .start 4 4])).step
    (.sinceStart 10)).1 = .ok (some 9) := by
  rw [C35_since_start _ _ _ _ _ _ (by rfl) (by simp [TimerOp.NoExit])]; norm_num

example : checkTimes [] [("a", 1, 1), ("b", 2, 2), ("a", 5, 5), ("b", 9, 9), ("a", 6, 6)] =
    .ok ([0, 0, 4, 7, 1], [("a", ⟨true, 1, 6⟩), ("b", ⟨true, 2, 9⟩)]) := by
  decide +kernel

/-! ## C36 -/

/-- The name was requested first by `c` among the calls that could initialise it. -/
def LogInv (s : LogState) : Prop :=
  s.initialized.Nodup ∧
  (∀ n, n ∉ s.initialized → s.handlers n = []) ∧
  (∀ n, n ∈ s.initialized → ∃ lvl, s.level n = lvl ∧
    (s.handlers n = [.stream lvl] ∨ ∃ f m, s.handlers n = [.stream lvl, .file f m lvl]))

theorem getLogger_inv {s s' : LogState} {c : LogCall} (inv : LogInv s) (h : getLogger s c = .ok s') :
    LogInv s' := by
  unfold getLogger at h
  split at h
  · cases h; exact inv
  · rename_i hn
    split at h
    · cases h; exact inv
    · obtain ⟨i1, i2, i3⟩ := inv
      have key : ∀ hs : List Handler, (hs = [.stream c.level] ∨ ∃ f m, hs = [.stream c.level, .file f m c.level]) →
          LogInv ⟨s.initialized ++ [c.name],
            fun n => if n = c.name then s.handlers n ++ hs else s.handlers n,
            fun n => if n = c.name then c.level else s.level n⟩ := by
        intro hs hhs
        refine ⟨?_, ?_, ?_⟩
        · rw [List.nodup_append]
          refine ⟨i1, by simp, ?_⟩
          intro x hx y hy hxy
          simp only [List.mem_singleton] at hy
          subst hy; subst hxy; exact hn hx
        · intro n hni
          simp only [List.mem_append, List.mem_singleton, not_or] at hni
          simp [hni.2, i2 n hni.1]
        · intro n hni
          simp only [List.mem_append, List.mem_singleton] at hni
          by_cases hnc : n = c.name
          · subst hnc
            refine ⟨c.level, by simp, ?_⟩
            simpa [i2 _ hn] using hhs
          · obtain ⟨lvl, l1, l2⟩ := i3 n (by tauto)
            exact ⟨lvl, by simp [hnc, l1], by simpa [hnc] using l2⟩
      cases hf : c.logFile with
      | none => rw [hf] at h; cases h; exact key _ (.inl rfl)
      | some f =>
        rw [hf] at h
        simp only at h
        split at h
        · cases h; exact key _ (.inr ⟨f, c.mode, rfl⟩)
        · cases h

/-- C36: in every state reachable by any history of `get_logger` calls, a logger has either no handler
or exactly one console handler and at most one file handler (never a second console handler), all at
the level it was initialised with. -/
theorem C36_handlers_once (h : List LogCall) (n : List Char) :
    let s := LogState.empty.run h
    s.handlers n = [] ∨ s.handlers n = [.stream (s.level n)] ∨
      ∃ f m, s.handlers n = [.stream (s.level n), .file f m (s.level n)] := by
  have inv : LogInv (LogState.empty.run h) := by
    have : ∀ (l : List LogCall) (s : LogState), LogInv s → LogInv (s.run l) := by
      intro l
      induction l with
      | nil => intro s hs; exact hs
      | cons c cs ih =>
        intro s hs
        apply ih
        simp only
        split
        · rename_i s' hs'; exact getLogger_inv hs hs'
        · exact hs
    exact this h _ ⟨List.nodup_nil, fun _ _ => rfl, fun _ hn => by simp [LogState.empty] at hn⟩
  intro s
  by_cases hn : n ∈ s.initialized
  · obtain ⟨lvl, l1, l2⟩ := inv.2.2 n hn
    subst l1
    exact .inr l2
  · exact .inl (inv.2.1 n hn)

theorem run_handlers_mono (l : List LogCall) (s : LogState) (n : List Char) (hn : n ∈ s.initialized) :
    n ∈ (s.run l).initialized ∧ (s.run l).handlers n = s.handlers n ∧ (s.run l).level n = s.level n := by
  induction l generalizing s with
  | nil => exact ⟨hn, rfl, rfl⟩
  | cons c cs ih =>
    have hstep : ∀ s', getLogger s c = .ok s' → n ∈ s'.initialized ∧ s'.handlers n = s.handlers n ∧
        s'.level n = s.level n := by
      intro s' h
      unfold getLogger at h
      split at h
      · cases h; exact ⟨hn, rfl, rfl⟩
      · rename_i hc
        have hne : n ≠ c.name := fun e => hc (e ▸ hn)
        split at h
        · cases h; exact ⟨hn, rfl, rfl⟩
        · cases hf : c.logFile with
          | none => rw [hf] at h; cases h; simp [hn, hne]
          | some f =>
            rw [hf] at h
            simp only at h
            split at h
            · cases h; simp [hn, hne]
            · cases h
    have e : s.run (c :: cs) = (match getLogger s c with | .ok s' => s' | .error _ => s).run cs := rfl
    rw [e]
    cases hg : getLogger s c with
    | error e => exact ih s hn
    | ok s' =>
      obtain ⟨a, b, d⟩ := hstep s' hg
      obtain ⟨a', b', d'⟩ := ih s' a
      exact ⟨a', b'.trans b, d'.trans d⟩

/-- C36: the first successful initialisation is final: after it, no further history of calls (with
whatever files or levels) changes the logger's handlers or level. -/
theorem C36_first_call_wins (h1 h2 : List LogCall) (c : LogCall) (s1 : LogState)
    (hnew : (LogState.empty.run h1).initialized.any (fun p => p.isPrefixOf c.name) = false)
    (hc : getLogger (LogState.empty.run h1) c = .ok s1) :
    (s1.run h2).handlers c.name =
      (match c.logFile with
        | none => [.stream c.level]
        | some f => [.stream c.level, .file f c.mode c.level]) ∧
    (s1.run h2).level c.name = c.level := by
  have inv : LogInv (LogState.empty.run h1) := by
    have : ∀ (l : List LogCall) (s : LogState), LogInv s → LogInv (s.run l) := by
      intro l
      induction l with
      | nil => intro s hs; exact hs
      | cons c cs ih =>
        intro s hs
        apply ih
        simp only
        split
        · rename_i s' hs'; exact getLogger_inv hs hs'
        · exact hs
    exact this h1 _ ⟨List.nodup_nil, fun _ _ => rfl, fun _ hn => by simp [LogState.empty] at hn⟩
  generalize LogState.empty.run h1 = s at *
  have hn : c.name ∉ s.initialized := by
    intro hm
    have : s.initialized.any (fun p => p.isPrefixOf c.name) = true :=
      List.any_eq_true.mpr ⟨_, hm, by simp⟩
    rw [this] at hnew; cases hnew
  have hh := inv.2.1 _ hn
  unfold getLogger at hc
  rw [if_neg hn, if_neg (by simp [hnew])] at hc
  cases hf : c.logFile with
  | none =>
    rw [hf] at hc
    simp only [Except.ok.injEq] at hc
    obtain ⟨_, b, d⟩ := run_handlers_mono h2 s1 c.name (by rw [← hc]; simp)
    rw [b, d, ← hc]
    simp [hh]
  | some f =>
    rw [hf] at hc
    simp only at hc
    split at hc
    · simp only [Except.ok.injEq] at hc
      obtain ⟨_, b, d⟩ := run_handlers_mono h2 s1 c.name (by rw [← hc]; simp)
      rw [b, d, ← hc]
      simp [hh]
    · cases hc

/-- C36: a name extending (as a string) an already initialised name gets no handlers, and requesting it
changes nothing. -/
theorem C36_child_gets_none (s : LogState) (c : LogCall)
    (h : ∃ p ∈ s.initialized, p <+: c.name) : getLogger s c = .ok s := by
  obtain ⟨p, hp, hpre⟩ := h
  unfold getLogger
  split
  · rfl
  · rw [if_pos]
    exact List.any_eq_true.mpr ⟨p, hp, by simpa using hpre⟩

/-- C36 (finding): "child" is decided by string prefix, not by dotted hierarchy: after `get_logger("a")`,
`get_logger("ab")` has no handler and, not being a descendant of `a`, its records reach no handler. -/
theorem C36_prefix_sibling_is_silent :
    let s := LogState.empty.run [⟨['a'], none, 20, "w", true⟩, ⟨['a', 'b'], none, 20, "w", true⟩]
    emitCount s [['a'], ['a', 'b']] ['a', 'b'] = 0 ∧ emitCount s [['a'], ['a', 'b']] ['a'] = 1 := by
  decide

/-- C36 (finding): initialising a child before its parent gives both a handler, so a record of the child
is written twice (propagation). -/
theorem C36_child_before_parent_duplicates :
    let s := LogState.empty.run [⟨['a', '.', 'b'], none, 20, "w", true⟩, ⟨['a'], none, 20, "w", true⟩]
    emitCount s [['a'], ['a', '.', 'b']] ['a', '.', 'b'] = 2 := by
  decide

/-- C36: `print_log` writes to the console, logs, stays silent or raises as documented. -/
theorem C36_print_log (s : LogState) (n : List Char) :
    printLog s .none = .ok (.printed, s) ∧ printLog s (.logger n) = .ok (.logged n, s) ∧
    printLog s (.name "silent".toList) = .ok (.nothing, s) ∧
    (n ≠ "silent".toList → ∃ s', printLog s (.name n) = .ok (.logged n, s')) ∧
    printLog s .other = .error .typeError := by
  refine ⟨rfl, rfl, by simp [printLog], ?_, rfl⟩
  intro hn
  obtain ⟨s', hs'⟩ : ∃ s', getLogger s ⟨n, .none, 20, "w", true⟩ = .ok s' := by
    unfold getLogger
    split
    · exact ⟨_, rfl⟩
    · split
      · exact ⟨_, rfl⟩
      · exact ⟨_, rfl⟩
  refine ⟨s', ?_⟩
  simp only [printLog]
  rw [if_neg hn, hs']
  rfl

example : let s := LogState.empty.run [⟨['x'], some "f.log", 10, "w", true⟩, ⟨['x'], some "g.log", 30, "a", true⟩]
    s.handlers ['x'] = [.stream 10, .file "f.log" "w" 10] := by decide

end EdgeEval.Props
