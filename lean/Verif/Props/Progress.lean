import Verif.Lemmas.Progress

/-!
# Property theorems C06 (parallel = sequential) and C34 (progress tracking)

`items.mapM func` is "apply `func` to the items in order, stop at the first exception".
-/

namespace EdgeEval.Props

open EdgeEval

section
variable {α β : Type}

/-! ## C06 -/

/-- C06: for every schedule of worker completions and consumer steps, an ordered parallel run that
ended normally returned `func` mapped over the tasks in order; one that raised, raised the exception
the sequential loop would raise; one still running has collected a prefix of the sequential results. -/
theorem C06_parallel_eq_sequential (func : α → Except PyErr β) (a : ParArgs) (tasks : TaskArg α)
    (sched : List PoolEvent) (s : PoolState β) (items : List α) (n : Int)
    (hr : tasks.resolve = .ok (items, n)) (ho : a.keepOrder = true)
    (h : trackParallel func a tasks sched = .ok s) :
    (s.status = .finished → items.mapM func = .ok s.results) ∧
    (∀ e, s.status = .raised e → items.mapM func = .error e) ∧
    (s.status = .running → ∃ k, (items.take k).mapM func = .ok s.results) := by
  obtain ⟨items', n', r1, r2, inv, _⟩ := trackParallel_inv ho h
  rw [hr] at r1
  cases r1
  refine ⟨fun hf => by rw [← r2]; exact (inv.done hf).1, fun e he => by rw [← r2]; exact inv.err e he, ?_⟩
  intro hrun
  obtain ⟨c, rss, _, _, h3, h4, _⟩ := inv.queue hrun
  refine ⟨((chunksOf a.chunksize items.length items).take c).flatten.length, ?_⟩
  have hpre : ((chunksOf a.chunksize items.length items).take c).flatten <+: items := by
    refine ⟨((chunksOf a.chunksize items.length items).drop c).flatten, ?_⟩
    rw [← List.flatten_append, List.take_append_drop, r2]
  rw [← List.prefix_iff_eq_take.mp hpre, mapM_flatten, h3, h4]
  rfl

/-- C06: the caller always gets an answer: once every chunk has been completed (in any order and
however interleaved with earlier consumer steps), finitely many further consumer steps end the loop. -/
theorem C06_parallel_terminates (func : α → Except PyErr β) (a : ParArgs) (tasks : TaskArg α)
    (sched : List PoolEvent) (items : List α) (n : Int)
    (hr : tasks.resolve = .ok (items, n)) (ho : a.keepOrder = true) (hp : 0 < a.nproc)
    (hc : 0 < a.chunksize)
    (hall : ∀ i, i < (chunksOf a.chunksize items.length items).length → .complete i ∈ sched) :
    ∃ k s, trackParallel func a tasks (sched ++ List.replicate k .next) = .ok s ∧
      s.status ≠ .running := by
  have hinit : ∃ s0 : PoolState β,
      parInit a tasks = .ok (chunksOf a.chunksize items.length items, s0) ∧
      s0.unsorted = [] ∧ s0.index = 0 := by
    have h1 : ¬ (a.nproc = 0) := by omega
    have h2 : ¬ (a.chunksize = 0) := by omega
    refine ⟨⟨0, [], [], [], if a.noBar then none else some (Bar.mk' (n -
      (a.nproc * a.chunksize : Nat) * (if a.skipFirst then 1 else 0)) (!a.skipFirst)), .running⟩,
      ?_, rfl, rfl⟩
    unfold parInit
    rw [hr]
    simp only [bind, Except.bind, h1, h2, if_false, pure, Except.pure]
  obtain ⟨s0, h0, hu, hi⟩ := hinit
  let s1 := sched.foldl (poolStep func a (chunksOf a.chunksize items.length items)) s0
  have hidx : s1.index = (chunksOf a.chunksize items.length items).length := by
    have hng : NoGap s1 := run_noGap ho sched s0 (by intro x hx; rw [hu] at hx; simp at hx)
    have hinv : trackParallel func a tasks sched = .ok s1 := by
      unfold trackParallel; rw [h0]; rfl
    obtain ⟨items', n', r1, _, inv, _⟩ := trackParallel_inv ho hinv
    rw [hr] at r1; cases r1
    have hle := inv.index_le
    by_contra hne
    have hlt : s1.index < (chunksOf a.chunksize items.length items).length := by omega
    rcases run_covered (func := func) (s := s0) ho sched hlt (.inl (hall _ hlt)) with hcov | ⟨x, hx, hxi⟩
    · exact absurd hcov (lt_irrefl _)
    · exact hng x hx hxi
  refine ⟨s1.items.length + 1, (List.replicate (s1.items.length + 1) PoolEvent.next).foldl
    (poolStep func a (chunksOf a.chunksize items.length items)) s1, ?_, ?_⟩
  · unfold trackParallel
    rw [h0]
    simp only [bind, Except.bind, pure, Except.pure, List.foldl_append]
    rfl
  · exact nexts_end _ s1 hidx (by omega)

theorem completions_nodup (n : Nat) (sched : List PoolEvent)
    (honce : (sched.filter (fun e => e ≠ .next)).Nodup) : (completions n sched).Nodup := by
  induction sched with
  | nil => exact List.nodup_nil
  | cons e es ih =>
    cases e with
    | next =>
      rw [show completions n (PoolEvent.next :: es) = completions n es from rfl]
      apply ih
      rw [List.filter_cons_of_neg (by simp)] at honce
      exact honce
    | complete i =>
      have honce' : PoolEvent.complete i ∉ es ∧ (es.filter (fun e => e ≠ .next)).Nodup := by
        rw [List.filter_cons_of_pos (by simp), List.nodup_cons] at honce
        refine ⟨fun hm => honce.1 (List.mem_filter.mpr ⟨hm, by simp⟩), honce.2⟩
      have ihh := ih honce'.2
      by_cases hi : i < n
      · rw [show completions n (PoolEvent.complete i :: es) = i :: completions n es by
          simp [completions, hi], List.nodup_cons]
        refine ⟨?_, ihh⟩
        intro hm
        simp only [completions, List.mem_filterMap] at hm
        obtain ⟨e, he, hei⟩ := hm
        cases e with
        | next => simp at hei
        | complete j =>
          simp only at hei
          split at hei
          · simp only [Option.some.injEq] at hei; subst hei; exact honce'.1 he
          · simp at hei
      · rw [show completions n (PoolEvent.complete i :: es) = completions n es by
          simp [completions, hi]]
        exact ihh

/-- C06: without `keep_order` the results of a finished run are a permutation of the sequential ones,
and an exception raised is one that some task raises. -/
theorem C06_unordered_is_permutation (func : α → Except PyErr β) (a : ParArgs) (tasks : TaskArg α)
    (sched : List PoolEvent) (s : PoolState β) (items : List α) (n : Int)
    (hr : tasks.resolve = .ok (items, n)) (ho : a.keepOrder = false)
    (honce : (sched.filter (fun e => e ≠ .next)).Nodup)
    (h : trackParallel func a tasks sched = .ok s) :
    (s.status = .finished → ∃ rs, items.mapM func = .ok rs ∧ s.results.Perm rs) ∧
    (∀ e, s.status = .raised e → ∃ x ∈ items, func x = .error e) := by
  unfold trackParallel at h
  obtain ⟨⟨chunks, s0⟩, h1, h⟩ := bind_ok.mp h
  obtain ⟨items', n', r1, r2, r3, r4, r5⟩ := parInit_ok h1
  rw [hr] at r1; cases r1
  simp only [pure, Except.pure, Except.ok.injEq] at h
  have hfl : chunks.flatten = items := by rw [r4]; exact chunksOf_flatten _ r3 _ _ (le_refl _)
  have inv0 : UnordInv func a (n - (a.nproc * a.chunksize : Nat) * (if a.skipFirst then 1 else 0))
      chunks [] s0 := by
    rw [r5]
    refine ⟨rfl, by simp, ?_, by simp, by simp⟩
    intro _
    refine ⟨[], [], [], rfl, rfl, rfl, rfl, ?_⟩
    simp only [BarOK]
    cases a.noBar
    · right; rfl
    · left; rfl
  have inv := unordInv_run ho sched inv0
  rw [h, List.nil_append] at inv
  refine ⟨?_, ?_⟩
  · intro hf
    obtain ⟨D, rss, d1, d2, d3, d4, _⟩ := inv.done hf
    have hnd := completions_nodup chunks.length sched honce
    have hDn : D.Nodup := hnd.sublist d1.sublist
    have hDp := nodup_perm_range hDn (fun i hi => inv.valid i (d1.subset hi)) d2
    obtain ⟨rss', q1, q2⟩ := mapM_perm hDp d3
    rw [← mapM_map' (fun i => chunks.getD i []) (fun c => c.mapM func), map_getD_range] at q1
    refine ⟨rss'.flatten, ?_, ?_⟩
    · rw [← hfl, mapM_flatten, q1]; rfl
    · rw [d4]; exact q2.flatten
  · intro e he
    obtain ⟨x, hx, hxe⟩ := inv.err e he
    exact ⟨x, by rw [← hfl]; exact hx, hxe⟩

/-- C06: whenever the parallel `calculate_metrics` produces a result (value or exception), it is the
result of the sequential one, for every number of processes and every schedule. -/
theorem C06_calculate_metrics_parallel {S : Type} (evalSingle : S → Except PyErr Counts)
    (name : S → String) (arg : ThresholdArg) (samples : List S) (nproc : Nat)
    (sched : List PoolEvent)
    (out : Except PyErr (List SampleResult × List ThresholdResult × OverallResult))
    (h : calculateMetrics evalSingle name arg samples nproc sched = some out) :
    calculateMetrics evalSingle name arg samples 1 [] = some out := by
  unfold calculateMetrics at h ⊢
  have hseq : sampleMetrics evalSingle samples 1 [] = some (samples.mapM evalSingle) := by
    simp only [sampleMetrics, gt_iff_lt, lt_irrefl, if_false, trackProgress, TaskArg.resolve, bind,
      Except.bind]
    rw [trackLoop_spec _ _ _ _ (by simp [Bar.mk'])]
    cases samples.mapM evalSingle <;> simp [Except.map]
  rw [hseq]
  have hp : ∀ r, sampleMetrics evalSingle samples nproc sched = some r →
      r = samples.mapM evalSingle := by
    intro r hr
    unfold sampleMetrics at hr
    split at hr
    · rename_i hn
      split at hr
      · rename_i e he
        exfalso
        have : ∃ s, trackParallel evalSingle ⟨nproc, 1, false, true, false⟩ (.list samples) sched = .ok s := by
          unfold trackParallel parInit
          have h1 : ¬ (nproc = 0) := by omega
          simp [TaskArg.resolve, bind, Except.bind, h1, pure, Except.pure]
        obtain ⟨s, hs⟩ := this
        rw [hs] at he; cases he
      · rename_i s hs
        obtain ⟨p1, p2, _⟩ := C06_parallel_eq_sequential evalSingle ⟨nproc, 1, false, true, false⟩
          (.list samples) sched s samples samples.length rfl rfl hs
        split at hr
        · simp at hr
        · rename_i hst; cases hr; exact (p1 hst).symm
        · rename_i e hst; cases hr; exact (p2 e hst).symm
    · simp only [trackProgress, TaskArg.resolve, bind, Except.bind] at hr
      rw [trackLoop_spec _ _ _ _ (by simp [Bar.mk'])] at hr
      cases hm : samples.mapM evalSingle <;> rw [hm] at hr <;> simp [Except.map] at hr <;> exact hr.symm
  cases hsm : sampleMetrics evalSingle samples nproc sched with
  | none => rw [hsm] at h; simp at h
  | some r =>
    rw [hsm] at h
    have := hp r hsm
    subst this
    exact h

/-- C06: if every task is completed at some point of the schedule, the parallel computation does
produce a result after finitely many further consumer steps. -/
theorem C06_calculate_metrics_total {S : Type} (evalSingle : S → Except PyErr Counts)
    (name : S → String) (arg : ThresholdArg) (samples : List S) (nproc : Nat)
    (sched : List PoolEvent)
    (hall : ∀ i, i < samples.length → .complete i ∈ sched) :
    ∃ k out, calculateMetrics evalSingle name arg samples nproc (sched ++ List.replicate k .next)
      = some out := by
  by_cases hn : nproc > 1
  · have hlen : ∀ (fuel : Nat) (l : List S), l.length ≤ fuel → (chunksOf 1 fuel l).length = l.length := by
      intro fuel
      induction fuel with
      | zero => intro l hl; have : l = [] := List.length_eq_zero_iff.mp (by omega)
                subst this; rfl
      | succ f ih =>
        intro l hl
        cases l with
        | nil => rfl
        | cons x xs => simp only [chunksOf, List.length_cons, List.drop_one, List.tail_cons]
                       rw [ih xs (by simp at hl; omega)]
    obtain ⟨k, s, h1, h2⟩ := C06_parallel_terminates evalSingle ⟨nproc, 1, false, true, false⟩
      (.list samples) sched samples samples.length rfl rfl (by simp; omega) (by simp)
      (by intro i hi; simp only [hlen samples.length samples (le_refl _)] at hi; exact hall i hi)
    refine ⟨k, ?_⟩
    unfold calculateMetrics sampleMetrics
    rw [if_pos hn, h1]
    cases hs : s.status with
    | running => exact absurd hs h2
    | finished => simp only [hs]; exact ⟨_, rfl⟩
    | raised e => simp only [hs]; exact ⟨_, rfl⟩
  · refine ⟨0, ?_⟩
    unfold calculateMetrics sampleMetrics
    rw [if_neg hn]
    exact ⟨_, rfl⟩

/-- Two tasks completed in reverse order, consumed afterwards: the ordered run finishes with the
results in task order. -/
example : ∃ s, trackParallel (fun n : Nat => Except.ok (n + 1)) ⟨2, 1, false, true, false⟩
    (.list [10, 20]) [.complete 1, .next, .complete 0, .next, .next, .next] = .ok s ∧
    s.status = .finished ∧ s.results = [11, 21] := ⟨_, rfl, rfl, rfl⟩

/-- The same schedule without `keep_order`: a permutation. -/
example : ∃ s, trackParallel (fun n : Nat => Except.ok (n + 1)) ⟨2, 1, false, false, false⟩
    (.list [10, 20]) [.complete 1, .next, .complete 0, .next, .next, .next] = .ok s ∧
    s.status = .finished ∧ s.results = [21, 11] ∧
    ([PoolEvent.complete 1, .next, .complete 0, .next, .next, .next].filter
      (fun e => e ≠ .next)).Nodup := ⟨_, rfl, rfl, rfl, by decide⟩

/-! ## C34 -/

/-- C34: `track_progress` returns exactly `func` mapped over the tasks (or the first exception), and
the bar counts one completed step per task; the bar total is the announced number of tasks. -/
theorem C34_track_progress (func : α → Except PyErr β) (tasks : TaskArg α) (items : List α) (n : Int)
    (hr : tasks.resolve = .ok (items, n)) :
    trackProgress func tasks true = (items.mapM func).map (fun rs => (rs, none)) ∧
    trackProgress func tasks false =
      (items.mapM func).map (fun rs => (rs, some ⟨n, items.length, true⟩)) := by
  unfold trackProgress
  rw [hr]
  simp only [bind, Except.bind, if_true]
  rw [trackLoop_spec _ _ _ _ (by simp)]
  refine ⟨rfl, ?_⟩
  simp only [Bool.false_eq_true, if_false]
  rw [trackLoop_spec _ _ _ _ (by simp [Bar.mk'])]
  cases items.mapM func <;> simp [Except.map, Bar.mk']

/-- C34: which task arguments are accepted. -/
theorem C34_task_arguments (l : List α) (n : Int) :
    (TaskArg.pair l n).resolve = .ok (l, n) ∧ (TaskArg.list l).resolve = .ok (l, (l.length : Int)) ∧
    (TaskArg.badTuple : TaskArg α).resolve = .error .assertionError ∧
    (TaskArg.unsized l).resolve = .error .typeError ∧
    (TaskArg.notIterable : TaskArg α).resolve = .error .typeError := ⟨rfl, rfl, rfl, rfl, rfl⟩

/-- C34: at every point of every ordered parallel run (whatever the schedule) that has not
raised a task exception, the bar has been updated once per received result, not counting the first
`nproc * chunksize` ones when `skip_first` is set; in particular a finished run over a sized task list
shows `completed = total` whenever the total shown is positive. -/
theorem C34_parallel_bar (func : α → Except PyErr β) (a : ParArgs) (l : List α)
    (sched : List PoolEvent) (s : PoolState β) (b : Bar) (ho : a.keepOrder = true)
    (h : trackParallel func a (.list l) sched = .ok s) (hb : s.bar = some b)
    (hs : ∀ e, s.status ≠ .raised e) :
    b.completed = s.results.length - (if a.skipFirst then a.nproc * a.chunksize else 0) ∧
    (s.status = .finished → 0 < b.taskNum → (b.completed : Int) = b.taskNum) := by
  obtain ⟨items, n, r1, r2, inv, hK⟩ := trackParallel_inv ho h
  cases r1
  have hbar : BarOK a (l.length - (a.nproc * a.chunksize : Nat) * (if a.skipFirst then 1 else 0))
      s.results.length s.bar := by
    cases hst : s.status with
    | running => obtain ⟨_, _, _, _, _, _, q⟩ := inv.queue hst; exact q
    | finished => exact (inv.done hst).2
    | raised e => exact absurd hst (hs e)
  rcases hbar with hbar | hbar
  · rw [hb] at hbar; cases hbar
  · rw [hb] at hbar
    cases hbar
    refine ⟨by unfold barAfter; split <;> simp, ?_⟩
    intro hf hpos
    have hlen := mapM_length (inv.done hf).1
    rw [r2] at hlen
    unfold barAfter at hpos ⊢
    split at hpos <;> simp_all <;> omega

/-- C34: the same without `keep_order` (each chunk being completed at most once). -/
theorem C34_parallel_bar_unordered (func : α → Except PyErr β) (a : ParArgs) (l : List α)
    (sched : List PoolEvent) (s : PoolState β) (b : Bar) (ho : a.keepOrder = false)
    (honce : (sched.filter (fun e => e ≠ .next)).Nodup)
    (h : trackParallel func a (.list l) sched = .ok s) (hb : s.bar = some b)
    (hs : ∀ e, s.status ≠ .raised e) :
    b.completed = s.results.length - (if a.skipFirst then a.nproc * a.chunksize else 0) ∧
    (s.status = .finished → 0 < b.taskNum → (b.completed : Int) = b.taskNum) := by
  have hperm := (C06_unordered_is_permutation func a (.list l) sched s l l.length rfl ho honce h).1
  unfold trackParallel at h
  obtain ⟨⟨chunks, s0⟩, h1, h⟩ := bind_ok.mp h
  obtain ⟨items', n', r1, r2, r3, r4, r5⟩ := parInit_ok h1
  cases r1
  simp only [pure, Except.pure, Except.ok.injEq] at h
  have inv0 : UnordInv func a (l.length - (a.nproc * a.chunksize : Nat) * (if a.skipFirst then 1 else 0))
      chunks [] s0 := by
    rw [r5]
    refine ⟨rfl, by simp, ?_, by simp, by simp⟩
    intro _
    refine ⟨[], [], [], rfl, rfl, rfl, rfl, ?_⟩
    simp only [BarOK]
    cases a.noBar
    · right; rfl
    · left; rfl
  have inv := unordInv_run ho sched inv0
  rw [h, List.nil_append] at inv
  have hbar : BarOK a (l.length - (a.nproc * a.chunksize : Nat) * (if a.skipFirst then 1 else 0))
      s.results.length s.bar := by
    cases hst : s.status with
    | running => obtain ⟨_, _, _, _, _, _, _, q⟩ := inv.queue hst; exact q
    | finished => obtain ⟨_, _, _, _, _, _, q⟩ := inv.done hst; exact q
    | raised e => exact absurd hst (hs e)
  rcases hbar with hbar | hbar
  · rw [hb] at hbar; cases hbar
  · rw [hb] at hbar
    cases hbar
    refine ⟨by unfold barAfter; split <;> simp, ?_⟩
    intro hf hpos
    obtain ⟨rs, q1, q2⟩ := hperm hf
    have hlen := mapM_length q1
    have hlen2 := q2.length_eq
    unfold barAfter at hpos ⊢
    split at hpos <;> simp_all <;> omega

/-- C34: the bar field always has exactly the chosen width (at least 2) as long as no more tasks are
reported than announced, and is full exactly at the end. -/
theorem C34_bar_field (bw tw ml : Int) (c t : Nat) (ht : 0 < t) (hc : c ≤ t) :
    let w := max 2 (min bw (min (tw - ml + 2) (tw * 6 / 10)))
    (((barField bw tw ml c t).1 + (barField bw tw ml c t).2 : Nat) : Int) = w ∧ 2 ≤ w ∧
    (c = t → (barField bw tw ml c t).2 = 0) := by
  intro w
  have hw : 2 ≤ w := le_max_left _ _
  have ht' : (0 : Int) < t := by exact_mod_cast ht
  have hc' : (c : Int) ≤ t := by exact_mod_cast hc
  have e : barField bw tw ml c t = ((w * c / t).toNat, (w - w * c / t).toNat) := rfl
  rw [e]
  have m0 : 0 ≤ w * c / t := Int.ediv_nonneg (by positivity) ht'.le
  have m1 : w * c / t ≤ w := by
    have h2 : w * c / t ≤ w * t / t := Int.ediv_le_ediv ht' (mul_le_mul_of_nonneg_left hc' (by omega))
    rwa [Int.mul_ediv_cancel _ ht'.ne'] at h2
  refine ⟨?_, hw, ?_⟩
  · simp only; push_cast [Int.toNat_of_nonneg m0, Int.toNat_of_nonneg (sub_nonneg.mpr m1)]; omega
  · rintro rfl
    simp only
    rw [Int.mul_ediv_cancel _ ht'.ne']; simp

/-- The first `k` values obtained from the `track_iter_progress` generator. -/
def iterTake (s : IterState α) : Nat → Except PyErr (List (Option α) × IterState α)
  | 0 => .ok ([], s)
  | k + 1 => do
    let (x, s') ← iterNext s
    let (xs, s'') ← iterTake s' k
    pure (x :: xs, s'')

theorem iterTake_spec (k : Nat) (l : List α) (n : Int) (c : Nat) (susp : Bool) (hk : k ≤ l.length) :
    iterTake ⟨l, ⟨n, c, true⟩, susp⟩ k = .ok ((l.take k).map some,
      ⟨l.drop k, ⟨n, if k = 0 then c else c + (if susp then 1 else 0) + (k - 1), true⟩,
        if k = 0 then susp else true⟩) := by
  induction k generalizing l c susp with
  | zero => simp [iterTake]
  | succ k ih =>
    cases l with
    | nil => simp at hk
    | cons x xs =>
      have hn : iterNext ⟨x :: xs, ⟨n, c, true⟩, susp⟩ =
          .ok (some x, ⟨xs, ⟨n, c + (if susp then 1 else 0), true⟩, true⟩) := by
        cases susp <;> simp [iterNext, Bar.update, bind, Except.bind]
      simp only [iterTake, hn, bind, Except.bind]
      rw [ih _ _ _ (by simpa using hk)]
      simp only [pure, Except.pure, List.take_succ_cons, List.map_cons, List.drop_succ_cons,
        Except.ok.injEq, Prod.mk.injEq, true_and, Nat.add_one_ne_zero, if_false, IterState.mk.injEq,
        Bar.mk.injEq, Nat.add_sub_cancel]
      constructor
      · split <;> simp <;> omega
      · split <;> simp

/-- C34: `track_iter_progress` yields the tasks unchanged and in order; a task is counted when the
consumer asks for the next one; after exhaustion (`StopIteration`) the count is the number of tasks. -/
theorem C34_iter_progress (l : List α) (n : Int) (s0 : IterState α)
    (h0 : iterInit (.pair l n) = .ok s0) :
    (∀ k, 0 < k → k ≤ l.length → ∃ s, iterTake s0 k = .ok ((l.take k).map some, s) ∧
      s.bar.completed = k - 1 ∧ s.bar.taskNum = n) ∧
    (∃ s, iterTake s0 (l.length + 1) = .ok (l.map some ++ [none], s) ∧
      s.bar.completed = l.length ∧ s.bar.taskNum = n) := by
  cases h0
  constructor
  · intro k hk hkl
    refine ⟨_, iterTake_spec k l n 0 false hkl, ?_, rfl⟩
    simp [hk.ne']
  · have snoc : ∀ (k : Nat) (s : IterState α) xs s1 y s2, iterTake s k = .ok (xs, s1) →
        iterNext s1 = .ok (y, s2) → iterTake s (k + 1) = .ok (xs ++ [y], s2) := by
      intro k
      induction k with
      | zero =>
        intro s xs s1 y s2 h1 h2
        cases h1
        simp [iterTake, h2, bind, Except.bind, pure, Except.pure]
      | succ k ih =>
        intro s xs s1 y s2 h1 h2
        rw [iterTake] at h1 ⊢
        obtain ⟨⟨x, s'⟩, e1, h1⟩ := bind_ok.mp h1
        obtain ⟨⟨ys, s''⟩, e2, h1⟩ := bind_ok.mp h1
        simp only [pure, Except.pure, Except.ok.injEq, Prod.mk.injEq] at h1
        obtain ⟨rfl, rfl⟩ := h1
        rw [e1]
        simp only [bind, Except.bind]
        rw [ih s' ys s'' y s2 e2 h2]
        rfl
    have h1 := iterTake_spec l.length l n 0 false (le_refl _)
    refine ⟨⟨[], ⟨n, l.length, true⟩, false⟩, ?_, rfl, rfl⟩
    rw [List.take_length] at h1
    refine snoc l.length _ _ _ none _ h1 ?_
    cases l with
    | nil => simp [iterNext, bind, Except.bind]
    | cons x xs =>
      simp [iterNext, Bar.update, bind, Except.bind]

example : trackProgress (fun n : Nat => Except.ok (n * n)) (.list [1, 2, 3]) false =
    .ok ([1, 4, 9], some ⟨3, 3, true⟩) := rfl

example : ∃ s b, trackParallel (fun n : Nat => Except.ok (n + 1)) ⟨1, 1, true, true, false⟩
    (.list [10, 20]) [.complete 1, .next, .complete 0, .next, .next, .next] = .ok s ∧
    s.status = .finished ∧ s.bar = some b ∧ b.completed = 1 ∧ b.taskNum = 1 :=
  ⟨_, _, rfl, rfl, rfl, rfl, rfl⟩

end

end EdgeEval.Props
