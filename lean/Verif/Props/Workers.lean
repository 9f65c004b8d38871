import Verif.Lemmas.Workers
import Verif.Props.Progress
import Verif.Model.WorkersEval

/-!
# Property theorems C78 (worker processes with a state of their own)
-/

namespace EdgeEval.Props

open EdgeEval EdgeEval.Spec EdgeEval.Workers

section Pool
variable {σ α β : Type}

theorem trackFleet_ok {f : StFun σ α β} {a : ParArgs} {initializer : Option (σ → σ)} {initargs : InitArgs} {tasks : TaskArg α} {st0 : σ}
    {sched : List FleetEvent} {s : Fleet σ β} {items : List α} {n : Int} (hr : tasks.resolve = .ok (items, n))
    (h : trackFleet f a initializer initargs tasks st0 sched = .ok s) :
    ∃ g s0, initPool a.nproc initializer initargs = .ok g ∧ parInit a tasks = .ok (chunksOf a.chunksize items.length items, s0) ∧
      0 < a.chunksize ∧
      s = sched.foldl (fleetStep f a (chunksOf a.chunksize items.length items)) ⟨s0, fun _ => g st0⟩ := by
  unfold trackFleet at h
  obtain ⟨x, h1, h⟩ := bind_ok.mp h
  obtain ⟨g, hg, h⟩ := bind_ok.mp h
  obtain ⟨⟨chunks, s0⟩, hp, h⟩ := bind_ok.mp h
  obtain ⟨items', n', r1, -, r3, r4, -⟩ := parInit_ok hp
  rw [hr] at r1
  cases r1
  subst r4
  simp only [pure, Except.pure, Except.ok.injEq] at h
  exact ⟨g, s0, hg, hp, r3, h.symm⟩

theorem parInit_pair {γ : Type} {a : ParArgs} {tasks : TaskArg α} {items : List α} {n : Int} (hr : tasks.resolve = .ok (items, n))
    {chunks : List (List α)} {s0 : PoolState β} (h : parInit a tasks = .ok (chunks, s0)) (l : List γ) :
    parInit a (.pair l n) = .ok (chunksOf a.chunksize l.length l, s0) := by
  unfold parInit at h ⊢
  rw [hr] at h
  simp only [TaskArg.resolve, bind, Except.bind, pure, Except.pure] at h ⊢
  by_cases h0 : a.nproc = 0
  · rw [if_pos h0] at h; cases h
  · rw [if_neg h0] at h ⊢
    by_cases h1 : a.chunksize = 0
    · rw [if_pos h1] at h; cases h
    · rw [if_neg h1] at h ⊢
      simp only [Except.ok.injEq, Prod.mk.injEq] at h ⊢
      exact ⟨trivial, h.2⟩

/-- C78: whatever the schedule, a pool of processes with state does what a pool does for a mathematical function: the one that runs every task in
some state that a worker can reach from its start state by running tasks.  In a run that finished, every worker ran the tasks of its chunks one
after the other, beginning with the state left by the initializer on a copy of the caller's state. -/
theorem C78_pool (f : StFun σ α β) (a : ParArgs) (initializer : Option (σ → σ)) (initargs : InitArgs) (tasks : TaskArg α) (st0 : σ)
    (sched : List FleetEvent) (s : Fleet σ β) (items : List α) (n : Int) (hr : tasks.resolve = .ok (items, n)) (honce : OnceEach sched)
    (h : trackFleet f a initializer initargs tasks st0 sched = .ok s) :
    ∃ g st, initPool a.nproc initializer initargs = .ok g ∧ (∀ k, Reach f items (g st0) (st k)) ∧
      trackParallel (inStates f st) a (.pair items.zipIdx n) (anonymous a.nproc sched) = .ok s.pool ∧
      (a.keepOrder = true → s.pool.status = .finished →
        ∀ w < a.nproc, RunFrom f items st (g st0) ((chunksRun w sched).flatMap (tasksOf a.chunksize items.length))) := by
  obtain ⟨g, s0, hg, hp, hs, hrun⟩ := trackFleet_ok hr h
  have hmem : ∀ c ∈ chunksOf a.chunksize items.length items, ∀ x ∈ c, x ∈ items := by
    intro c hc x hx
    rw [← chunksOf_flatten a.chunksize hs items.length items (le_refl _)]
    exact List.mem_flatten_of_mem hc hx
  set chunks := chunksOf a.chunksize items.length items with hchunks
  let S : Nat → σ := fun i => startOf f a.nproc chunks (g st0) i sched (fun _ => g st0)
  let st : Nat → σ := fun k => stAt f (chunks.getD (k / a.chunksize) []) (S (k / a.chunksize)) (k % a.chunksize)
  have hst : ∀ i c, chunks[i]? = some c → ∀ j < c.length, st (i * a.chunksize + j) = stAt f c (S i) j := by
    intro i c hc j hj
    have hget := chunksOf_get a.chunksize hs items.length items (le_refl _) i
    rw [← hchunks, hc] at hget
    have hlen : j < a.chunksize := by
      split at hget
      · simp only [Option.some.injEq] at hget
        rw [hget] at hj
        simp at hj
        omega
      · cases hget
    have e1 : (i * a.chunksize + j) / a.chunksize = i := by
      rw [mul_comm, Nat.mul_add_div hs, Nat.div_eq_of_lt hlen, Nat.add_zero]
    have e2 : (i * a.chunksize + j) % a.chunksize = j := by
      rw [mul_comm, Nat.mul_add_mod, Nat.mod_eq_of_lt hlen]
    show stAt f (chunks.getD ((i * a.chunksize + j) / a.chunksize) []) (S ((i * a.chunksize + j) / a.chunksize))
      ((i * a.chunksize + j) % a.chunksize) = _
    rw [e1, e2, List.getD_eq_getElem?_getD, hc]
    rfl
  have hag : Agree f a.nproc chunks (g st0) S sched (fun _ => g st0) := fun i _ => rfl
  have hSr : ∀ i, Reach f items (g st0) (S i) := fun i =>
    startOf_reach f items (g st0) a.nproc chunks hmem (g st0) .start i sched _ fun _ => .start
  have hpool := fleet_pool f a hs items (g st0) S st hst sched honce ⟨s0, fun _ => g st0⟩ hag
  rw [← hchunks, ← hrun] at hpool
  have hpar : trackParallel (inStates f st) a (.pair items.zipIdx n) (anonymous a.nproc sched) = .ok s.pool := by
    unfold trackParallel
    rw [parInit_pair hr hp items.zipIdx, hpool]
    rfl
  refine ⟨g, st, hg, ?_, hpar, ?_⟩
  · intro k
    apply stAt_reach _ _ _ _ _ _ (hSr _)
    intro x hx
    rw [List.getD_eq_getElem?_getD] at hx
    cases hc : chunks[k / a.chunksize]? with
    | none => rw [hc] at hx; simp at hx
    | some c => rw [hc] at hx; exact hmem c (List.mem_of_getElem? hc) x hx
  · intro ho hf w hw
    have hall := (C06_parallel_eq_sequential _ a _ _ s.pool items.zipIdx n rfl ho hpar).1 hf
    refine fleet_worker f a hs items (g st0) S st hst ?_ w hw sched honce (fun _ => g st0) hag
    intro i c hc
    rw [← mapM_stAt f c (S i) (i * a.chunksize) st (hst i c hc)]
    rw [← chunksOf_flatten a.chunksize hs items.zipIdx.length items.zipIdx (le_refl _), mapM_flatten] at hall
    cases hm : (chunksOf a.chunksize items.zipIdx.length items.zipIdx).mapM (fun c => c.mapM (inStates f st)) with
    | error e => rw [hm] at hall; cases hall
    | ok rss =>
      have hci : (chunksOf a.chunksize items.zipIdx.length items.zipIdx)[i]? = some (c.zipIdx (i * a.chunksize)) := by
        rw [chunksOf_zipIdx _ hs, ← hchunks, hc]; rfl
      cases hcm : (c.zipIdx (i * a.chunksize)).mapM (inStates f st) with
      | ok rs => exact ⟨rs, rfl⟩
      | error e =>
        exfalso
        have key : ∀ (l : List (List (α × Nat))) (r : List (List β)) (x : List (α × Nat)), x ∈ l →
            l.mapM (fun c => c.mapM (inStates f st)) = .ok r → ∃ y, x.mapM (inStates f st) = .ok y := by
          intro l
          induction l with
          | nil => intro r x hx; simp at hx
          | cons z zs ih =>
            intro r x hx hr
            rw [List.mapM_cons] at hr
            obtain ⟨b, hb, hr⟩ := bind_ok.mp hr
            obtain ⟨bs, hbs, hr⟩ := bind_ok.mp hr
            rcases List.mem_cons.1 hx with rfl | hx
            · exact ⟨b, hb⟩
            · exact ih bs x hx hbs
        obtain ⟨y, hy⟩ := key _ _ _ (List.mem_of_getElem? hci) hm
        rw [hcm] at hy
        cases hy

/-- C78: in task order: a finished ordered run returned, for every task, what the function returns for it in some reachable state; a run that
raised, raised what the sequential loop over these states raises first. -/
theorem C78_results (f : StFun σ α β) (a : ParArgs) (initializer : Option (σ → σ)) (initargs : InitArgs) (tasks : TaskArg α) (st0 : σ)
    (sched : List FleetEvent) (s : Fleet σ β) (items : List α) (n : Int) (hr : tasks.resolve = .ok (items, n)) (honce : OnceEach sched)
    (ho : a.keepOrder = true) (h : trackFleet f a initializer initargs tasks st0 sched = .ok s) :
    ∃ g, initPool a.nproc initializer initargs = .ok g ∧
      (s.pool.status = .finished → List.Forall₂ (fun x r => ∃ st, Reach f items (g st0) st ∧ (f x st).1 = .ok r) items s.pool.results) ∧
      (∀ e, s.pool.status = .raised e → ∃ x ∈ items, ∃ st, Reach f items (g st0) st ∧ (f x st).1 = .error e) := by
  obtain ⟨g, st, hg, hre, hpar, -⟩ := C78_pool f a initializer initargs tasks st0 sched s items n hr honce h
  obtain ⟨h1, h2, -⟩ := C06_parallel_eq_sequential _ a _ _ s.pool items.zipIdx n rfl ho hpar
  refine ⟨g, hg, ?_, ?_⟩
  · intro hf
    have key : ∀ (l : List α) (m : Nat) (r : List β), (l.zipIdx m).mapM (inStates f st) = .ok r →
        List.Forall₂ (fun x r => ∃ st, Reach f items (g st0) st ∧ (f x st).1 = .ok r) l r := by
      intro l
      induction l with
      | nil => intro m r hr; cases hr; exact .nil
      | cons x xs ih =>
        intro m r hr
        rw [List.zipIdx_cons, List.mapM_cons] at hr
        obtain ⟨b, hb, hr⟩ := bind_ok.mp hr
        obtain ⟨bs, hbs, hr⟩ := bind_ok.mp hr
        cases hr
        exact .cons ⟨st m, hre m, hb⟩ (ih (m + 1) bs hbs)
    exact key items 0 _ (h1 hf)
  · intro e he
    obtain ⟨⟨x, k⟩, hx, hxe⟩ := mapM_mem_err (h2 e he)
    refine ⟨x, ?_, st k, hre k, hxe⟩
    have := List.mem_zipIdx hx
    rw [this.2.2]
    exact List.getElem_mem _

/-- C78: what holds of a task and its result in every state holds of every result of a pool. -/
theorem C78_invariant (f : StFun σ α β) (a : ParArgs) (initializer : Option (σ → σ)) (initargs : InitArgs) (tasks : TaskArg α) (st0 : σ)
    (sched : List FleetEvent) (s : Fleet σ β) (items : List α) (n : Int) (hr : tasks.resolve = .ok (items, n)) (honce : OnceEach sched)
    (ho : a.keepOrder = true) (h : trackFleet f a initializer initargs tasks st0 sched = .ok s) (hf : s.pool.status = .finished)
    (P : α → β → Prop) (hP : ∀ x ∈ items, ∀ st r, (f x st).1 = .ok r → P x r) : List.Forall₂ P items s.pool.results := by
  obtain ⟨g, -, h1, -⟩ := C78_results f a initializer initargs tasks st0 sched s items n hr honce ho h
  have key : ∀ (l : List α) (r : List β), (∀ x ∈ l, x ∈ items) →
      List.Forall₂ (fun x r => ∃ st, Reach f items (g st0) st ∧ (f x st).1 = .ok r) l r → List.Forall₂ P l r := by
    intro l r hl hfa
    induction hfa with
    | nil => exact .nil
    | cons hab _ ih =>
      obtain ⟨st, -, hst⟩ := hab
      exact .cons (hP _ (hl _ (by simp)) st _ hst) (ih fun x hx => hl x (List.mem_cons_of_mem _ hx))
  exact key _ _ (fun x hx => hx) (h1 hf)

theorem runSeq_of_function (f : StFun σ α β) (h : α → Except PyErr β) (c : List α) (hf : ∀ x ∈ c, ∀ st, (f x st).1 = h x) (st : σ) :
    (runSeq f c st).1 = c.mapM h := by
  induction c generalizing st with
  | nil => rfl
  | cons x xs ih =>
    have hx := hf x (by simp) st
    have hxs := ih (fun y hy => hf y (List.mem_cons_of_mem _ hy))
    rw [runSeq, List.mapM_cons, ← hx]
    rcases f x st with ⟨r | r, s'⟩
    · rfl
    · simp only [bind, Except.bind]
      rw [← hxs s']
      rcases runSeq f xs s' with ⟨r' | r', s''⟩ <;> rfl

/-- C78: if the results do not depend on the state, the number of processes, the schedule and the initializer do not matter: the outcome is that of
the sequential loop in the calling process. -/
theorem C78_state_independent (f : StFun σ α β) (a : ParArgs) (initializer : Option (σ → σ)) (initargs : InitArgs) (tasks : TaskArg α) (st0 : σ)
    (sched : List FleetEvent) (s : Fleet σ β) (items : List α) (n : Int) (hr : tasks.resolve = .ok (items, n)) (honce : OnceEach sched)
    (ho : a.keepOrder = true) (h : trackFleet f a initializer initargs tasks st0 sched = .ok s)
    (hind : ∀ x ∈ items, ∀ st st', (f x st).1 = (f x st').1) :
    (s.pool.status = .finished → (trackHere f tasks st0).1 = .ok s.pool.results) ∧
    (∀ e, s.pool.status = .raised e → (trackHere f tasks st0).1 = .error e) := by
  obtain ⟨g, st, -, -, hpar, -⟩ := C78_pool f a initializer initargs tasks st0 sched s items n hr honce h
  obtain ⟨h1, h2, -⟩ := C06_parallel_eq_sequential _ a _ _ s.pool items.zipIdx n rfl ho hpar
  have e1 : (trackHere f tasks st0).1 = items.mapM fun x => (f x st0).1 := by
    unfold trackHere
    rw [hr]
    exact runSeq_of_function f _ items (fun x hx st => hind x hx st st0) st0
  have e2 : ∀ (l : List α) (m : Nat), (∀ x ∈ l, x ∈ items) → (l.zipIdx m).mapM (inStates f st) = l.mapM fun x => (f x st0).1 := by
    intro l
    induction l with
    | nil => intro m _; rfl
    | cons x xs ih =>
      intro m hl
      rw [List.zipIdx_cons, List.mapM_cons, List.mapM_cons, ih (m + 1) fun y hy => hl y (List.mem_cons_of_mem _ hy)]
      rw [show inStates f st (x, m) = (f x st0).1 from hind x (hl x (by simp)) _ _]
  rw [e2 items 0 fun x hx => hx] at h1 h2
  rw [e1]
  exact ⟨h1, h2⟩

theorem runFrom_range (f : StFun σ α β) (st : Nat → σ) (pre l : List α) (s : σ) (r : List β)
    (h : RunFrom f (pre ++ l) st s (List.range' pre.length l.length)) (hok : (l.zipIdx pre.length).mapM (inStates f st) = .ok r) :
    (runSeq f l s).1 = .ok r := by
  induction l generalizing pre s r with
  | nil => exact hok
  | cons x xs ih =>
    rw [List.length_cons, List.range'_succ] at h
    rw [List.zipIdx_cons, List.mapM_cons] at hok
    obtain ⟨b, hb, hok⟩ := bind_ok.mp hok
    obtain ⟨bs, hbs, hok⟩ := bind_ok.mp hok
    cases hok
    cases h with
    | cons hx hs hrest =>
      rename_i y
      have hxy : x = y := by simpa using hx
      subst hxy
      have := ih (pre ++ [x]) (f x s).2 bs (by simpa using hrest) (by simpa using hbs)
      have hb' : (f x s).1 = .ok b := by rw [← hs]; exact hb
      rw [runSeq]
      rcases hfx : f x s with ⟨e | v, s'⟩
      · rw [hfx] at hb'; cases hb'
      · rw [hfx] at hb' this
        cases hb'
        simp only at this ⊢
        rcases hrs : runSeq f xs s' with ⟨e | v, s''⟩
        · rw [hrs] at this; cases this
        · rw [hrs] at this; cases this; rfl

/-- C78: a pool of one process, which takes the chunks in order, returns what the sequential loop returns in a copy of the calling process. -/
theorem C78_one_process (f : StFun σ α β) (a : ParArgs) (tasks : TaskArg α) (st0 : σ) (sched : List FleetEvent) (s : Fleet σ β)
    (items : List α) (n : Int) (hr : tasks.resolve = .ok (items, n)) (ho : a.keepOrder = true) (h1 : a.nproc = 1) (hsz : a.chunksize = 1)
    (h : trackFleet f a none .absent tasks st0 sched = .ok s) (hf : s.pool.status = .finished) (honce : OnceEach sched)
    (hfifo : chunksRun 0 sched = List.range items.length) :
    (trackHere f tasks st0).1 = .ok s.pool.results := by
  obtain ⟨g, st, hg, -, hpar, hrun⟩ := C78_pool f a none .absent tasks st0 sched s items n hr honce h
  have hrun := hrun ho hf 0 (by omega)
  have hall := (C06_parallel_eq_sequential _ a _ _ s.pool items.zipIdx n rfl ho hpar).1 hf
  have hgid : g = id := by
    unfold initPool at hg
    rw [h1] at hg
    simpa using hg.symm
  subst hgid
  have hts : ∀ m, m ≤ items.length → (List.range m).flatMap (tasksOf a.chunksize items.length) = List.range m := by
    intro m
    induction m with
    | zero => intro _; rfl
    | succ m ih =>
      intro hm
      rw [List.range_succ, List.flatMap_append, ih (by omega), List.flatMap_singleton, tasksOf_eq, hsz, mul_one,
        show min 1 (items.length - m) = 1 by omega]
      rfl
  rw [hfifo, hts _ (le_refl _), List.range_eq_range'] at hrun
  unfold trackHere
  rw [hr]
  exact runFrom_range f st [] items st0 _ hrun hall

theorem all_delivered {γ : Type} (func : γ → Except PyErr β) (a : ParArgs) (items : List γ) (n : Int) (sched : List PoolEvent) (s1 : PoolState β)
    (ho : a.keepOrder = true) (h : trackParallel func a (.pair items n) sched = .ok s1)
    (hall : ∀ i, i < (chunksOf a.chunksize items.length items).length → .complete i ∈ sched) :
    s1.index = (chunksOf a.chunksize items.length items).length := by
  obtain ⟨items', n', r1, _, inv, _⟩ := trackParallel_inv ho h
  cases r1
  have hle := inv.index_le
  unfold trackParallel at h
  obtain ⟨⟨chunks, s0⟩, hp, h⟩ := bind_ok.mp h
  obtain ⟨items', n', r1, -, -, r4, r5⟩ := parInit_ok hp
  cases r1
  subst r4
  simp only [pure, Except.pure, Except.ok.injEq] at h
  have hng : NoGap s1 := by
    rw [← h]
    exact run_noGap ho sched s0 (by intro x hx; rw [r5] at hx; simp at hx)
  by_contra hne
  have hlt : s1.index < (chunksOf a.chunksize items.length items).length := by omega
  have hcov := run_covered (func := func) (s := s0) ho sched hlt (.inl (hall _ hlt))
  rw [h] at hcov
  rcases hcov with hcov | ⟨x, hx, hxi⟩
  · exact absurd hcov (lt_irrefl _)
  · exact hng x hx hxi

theorem fleet_nexts (f : StFun σ α β) (a : ParArgs) (chunks : List (List α)) (k : Nat) (s : Fleet σ β) :
    ((List.replicate k FleetEvent.next).foldl (fleetStep f a chunks) s).pool =
      (List.replicate k PoolEvent.next).foldl (poolStep (fun (_ : α) => Except.error PyErr.terminated) a chunks) s.pool := by
  induction k generalizing s with
  | zero => rfl
  | succ k ih => rw [List.replicate_succ, List.replicate_succ, List.foldl_cons, List.foldl_cons, ih]; rfl

/-- C78: the caller always gets an answer: once every chunk has been run by some worker, finitely many further steps of the caller end the loop. -/
theorem C78_terminates (f : StFun σ α β) (a : ParArgs) (initializer : Option (σ → σ)) (initargs : InitArgs) (tasks : TaskArg α) (st0 : σ)
    (sched : List FleetEvent) (items : List α) (n : Int) (hr : tasks.resolve = .ok (items, n)) (ho : a.keepOrder = true)
    (hp : 0 < a.nproc) (hc : 0 < a.chunksize) (hi : initializer = none ∨ initargs ≠ .notTuple) (honce : OnceEach sched)
    (hall : ∀ i, i * a.chunksize < items.length → ∃ w < a.nproc, .complete w i ∈ sched) :
    ∃ k s, trackFleet f a initializer initargs tasks st0 (sched ++ List.replicate k .next) = .ok s ∧ s.pool.status ≠ .running := by
  have hg : ∃ g, initPool a.nproc initializer initargs = .ok g := by
    have h0 : ¬ a.nproc = 0 := by omega
    cases initializer with
    | none => exact ⟨id, by simp only [initPool, if_neg h0]⟩
    | some g =>
      cases initargs with
      | notTuple => rcases hi with hi | hi <;> simp at hi
      | absent => exact ⟨g, by simp only [initPool, if_neg h0]⟩
      | tuple => exact ⟨g, by simp only [initPool, if_neg h0]⟩
  obtain ⟨g, hg⟩ := hg
  have hinit : ∃ s0 : PoolState β, parInit a tasks = .ok (chunksOf a.chunksize items.length items, s0) := by
    unfold parInit
    rw [hr]
    simp only [bind, Except.bind, if_neg (by omega : ¬ a.nproc = 0), if_neg (by omega : ¬ a.chunksize = 0), pure, Except.pure]
    exact ⟨_, rfl⟩
  obtain ⟨s0, h0⟩ := hinit
  have hrun : ∀ sch, trackFleet f a initializer initargs tasks st0 sch =
      .ok (sch.foldl (fleetStep f a (chunksOf a.chunksize items.length items)) ⟨s0, fun _ => g st0⟩) := by
    intro sch
    unfold trackFleet
    rw [hr, hg, h0]
    rfl
  obtain ⟨-, st, -, -, hpar, -⟩ := C78_pool f a initializer initargs tasks st0 sched _ items n hr honce (hrun sched)
  have hidx := all_delivered _ a items.zipIdx n _ _ ho hpar (by
    intro i hlt
    rw [chunksOf_zipIdx_length _ hc, ← not_le, ← List.getElem?_eq_none_iff, chunksOf_get _ hc _ _ (le_refl _)] at hlt
    obtain ⟨w, hw, hm⟩ := hall i (by
      by_contra hge
      rw [if_neg hge] at hlt
      exact hlt rfl)
    unfold anonymous
    rw [List.mem_filterMap]
    exact ⟨_, hm, by simp [hw]⟩)
  rw [chunksOf_zipIdx_length _ hc] at hidx
  set s1 := sched.foldl (fleetStep f a (chunksOf a.chunksize items.length items)) ⟨s0, fun _ => g st0⟩ with hs1
  refine ⟨s1.pool.items.length + 1, _, hrun _, ?_⟩
  rw [List.foldl_append, ← hs1, fleet_nexts]
  exact nexts_end _ s1.pool hidx (by omega)

/-- C78: what `init_pool` accepts: the arguments of the initializer must be a tuple, and are ignored without an initializer; there must be at least
one process. -/
theorem C78_init_pool (nproc : Nat) (initargs : InitArgs) (g : σ → σ) :
    initPool nproc (some g) .notTuple = .error .typeError ∧
    (0 < nproc → initPool nproc (none : Option (σ → σ)) initargs = .ok id) ∧
    (0 < nproc → initargs ≠ .notTuple → initPool nproc (some g) initargs = .ok g) ∧
    initPool 0 (none : Option (σ → σ)) initargs = .error .valueError := by
  refine ⟨rfl, ?_, ?_, rfl⟩
  · intro h
    simp only [initPool, if_neg (by omega : ¬ nproc = 0)]
  · intro h hn
    cases initargs with
    | notTuple => exact absurd rfl hn
    | absent => simp only [initPool, if_neg (by omega : ¬ nproc = 0)]
    | tuple => simp only [initPool, if_neg (by omega : ¬ nproc = 0)]

end Pool

/-! ## a function with state -/

/-- Returns how many tasks its process has run before (like a draw from a random stream). -/
def ticket : StFun Nat Unit Nat := fun _ st => (.ok st, st + 1)

def twoWorkers : ParArgs := ⟨2, 1, false, true, true⟩

/-- C78: with a state, the results do depend on the schedule and on the number of processes: two workers that run one task each both run it in
the state of the caller. -/
theorem C78_schedule_matters :
    ∃ (s s' : Fleet Nat Nat) (sched sched' : List FleetEvent), OnceEach sched ∧ OnceEach sched' ∧
      trackFleet ticket twoWorkers none .absent (.list [(), ()]) 0 sched = .ok s ∧
      trackFleet ticket twoWorkers none .absent (.list [(), ()]) 0 sched' = .ok s' ∧
      s.pool.status = .finished ∧ s'.pool.status = .finished ∧ s.pool.results = [0, 0] ∧ s'.pool.results = [0, 1] ∧
      (trackHere ticket (.list [(), ()]) 0).1 = .ok [0, 1] := by
  refine ⟨_, _, [.complete 0 0, .complete 1 1, .next, .next, .next], [.complete 1 0, .complete 1 1, .next, .next, .next],
    ?_, ?_, rfl, rfl, rfl, rfl, rfl, rfl, rfl⟩
  · unfold OnceEach; decide
  · unfold OnceEach; decide

/-- Three tasks in chunks of two, the second worker runs the second chunk first; an initializer sets the counter to 5. -/
example : ∃ s : Fleet Nat Nat, trackFleet ticket ⟨2, 2, false, true, true⟩ (some fun _ => 5) .tuple (.list [(), (), ()]) 0
      [.complete 1 1, .complete 0 0, .next, .next, .next] = .ok s ∧ s.pool.status = .finished ∧ s.pool.results = [5, 6, 5] ∧
      OnceEach [.complete 1 1, .complete 0 0, .next, .next, .next] :=
  ⟨_, rfl, rfl, rfl, by unfold OnceEach; decide⟩

/-- One process in order. -/
example : ∃ s : Fleet Nat Nat, trackFleet ticket ⟨1, 1, false, true, true⟩ none .absent (.list [(), ()]) 7
      [.complete 0 0, .next, .complete 0 1, .next, .next] = .ok s ∧ s.pool.status = .finished ∧ s.pool.results = [7, 8] ∧
      chunksRun 0 [.complete 0 0, .next, .complete 0 1, .next, .next] = List.range 2 :=
  ⟨_, rfl, rfl, rfl, by decide⟩

/-! ## the evaluators -/

section Evaluate

open Text Evaluators Samples Datasets EndToEnd

theorem parInit_eq_of_resolve {α β : Type} (a : ParArgs) (t t' : TaskArg α) (h : t.resolve = t'.resolve) :
    (parInit a t : Except PyErr (List (List α) × PoolState β)) = parInit a t' := by
  unfold parInit
  rw [h]

theorem chunksOf_map {α γ : Type} (g : α → γ) (size fuel : Nat) (l : List α) :
    chunksOf size fuel (l.map g) = (chunksOf size fuel l).map (List.map g) := by
  induction fuel generalizing l with
  | zero => rfl
  | succ n ih =>
    cases l with
    | nil => rfl
    | cons x xs =>
      rw [show chunksOf size (n + 1) (x :: xs) = (x :: xs).take size :: chunksOf size n ((x :: xs).drop size) from rfl, List.map_cons (f := List.map g), ← ih,
        List.map_take, List.map_drop]
      rfl

theorem trackParallel_map {α γ β : Type} (g : α → γ) (f : γ → Except PyErr β) (a : ParArgs) (l : List α) (n : Int) (sched : List PoolEvent) :
    trackParallel f a (.pair (l.map g) n) sched = trackParallel (fun x => f (g x)) a (.pair l n) sched := by
  have hstep : ∀ chunks : List (List α), ∀ (s : PoolState β) ev,
      poolStep f a (chunks.map (List.map g)) s ev = poolStep (fun x => f (g x)) a chunks s ev := by
    intro chunks s ev
    cases ev with
    | next => simp only [poolStep, List.length_map]
    | complete i =>
      simp only [poolStep, List.getElem?_map]
      cases chunks[i]? with
      | none => rfl
      | some c => simp only [Option.map_some, mapM_map']
  have hinit : (parInit a (.pair (l.map g) n) : Except PyErr (List (List γ) × PoolState β)) =
      (parInit a (.pair l n)).map fun x => (x.1.map (List.map g), x.2) := by
    simp only [parInit, TaskArg.resolve, bind, Except.bind, pure, Except.pure, List.length_map, chunksOf_map]
    split
    · rfl
    · split <;> rfl
  unfold trackParallel
  rw [hinit]
  cases (parInit a (.pair l n) : Except PyErr (List (List α) × PoolState β)) with
  | error e => rfl
  | ok x =>
    obtain ⟨chunks, s⟩ := x
    simp only [Except.map, bind, Except.bind, pure, Except.pure]
    congr 1
    have : poolStep f a (chunks.map (List.map g)) = poolStep (β := β) (fun x => f (g x)) a chunks := by
      funext s ev; exact hstep chunks s ev
    rw [this]

theorem inStates_single {σ : Type} (env : Env) (k : Kind) (arg : ThresholdArg) (streams : σ → Nat → Nat → Nat → ℚ) (after : Sample → σ → σ)
    (st : Nat → σ) (x : Sample) (i : Nat) :
    inStates (singleIn env k arg streams after) st (x, i) = single env k arg (fun i => streams (st i)) (i, x) := rfl

/-- C78: an evaluation in processes with state is the evaluation of `Model/EndToEnd.lean` for some choice of a random stream for each sample, each of
them the stream of a state that a process can be in.  So everything proved there for all streams (C50) holds of it. -/
theorem C78_evaluate_category {σ : Type} (fs : Fs) (env : Env) (e : Ev) (category : Int) (arg : ThresholdArg) (nproc : Nat) (save : Bool)
    (streams : σ → Nat → Nat → Nat → ℚ) (after : Sample → σ → σ) (st0 : σ) (sched : List FleetEvent) (honce : OnceEach sched)
    (out : Except PyErr Outcome) (h : evaluateCategoryIn fs env e category arg nproc save streams after st0 sched = some out) :
    ∃ st : Nat → σ, (∀ data, categoryData fs e category = .ok data →
        ∀ i, Reach (singleIn env e.kind arg streams after) data st0 (st i)) ∧
      evaluateCategory fs env e category arg nproc save (fun i => streams (st i)) (anonymous nproc sched) = some out := by
  unfold evaluateCategoryIn at h
  unfold evaluateCategory
  cases hd : categoryData fs e category with
  | error er => rw [hd] at h; exact ⟨fun _ => st0, (fun data hdd => by cases hdd), h⟩
  | ok data =>
    rw [hd] at h
    simp only at h ⊢
    obtain ⟨r, hr, rfl⟩ := Option.map_eq_some_iff.1 h
    unfold calculateMetricsIn at hr
    obtain ⟨cs, hcs, rfl⟩ := Option.map_eq_some_iff.1 hr
    have hnames : (numbered data).map (fun x => String.ofList x.2.name) = data.map fun x => String.ofList x.name := by
      unfold numbered
      rw [List.map_map]
      apply List.ext_getElem?
      intro i
      simp only [List.getElem?_map, List.getElem?_zipIdx, Function.comp_def]
      cases data[i]? <;> rfl
    have key : ∃ st : Nat → σ, (∀ i, Reach (singleIn env e.kind arg streams after) data st0 (st i)) ∧
        sampleMetrics (single env e.kind arg fun i => streams (st i)) (numbered data) nproc (anonymous nproc sched) = some cs := by
      unfold sampleMetricsIn at hcs
      by_cases hn : nproc > 1
      · rw [if_pos hn] at hcs
        cases hf : trackFleet (singleIn env e.kind arg streams after) ⟨nproc, 1, false, true, false⟩ none .absent (.list data) st0 sched with
        | error er =>
          exfalso
          unfold trackFleet at hf
          simp only [TaskArg.resolve, initPool, parInit, bind, Except.bind, pure, Except.pure, if_neg (by omega : ¬ nproc = 0),
            if_neg (by omega : ¬ 1 = 0)] at hf
          cases hf
        | ok s =>
          obtain ⟨g, st, hg, hre, hpar, -⟩ := C78_pool _ _ _ _ _ _ _ s data data.length rfl honce hf
          have hgid : g = id := by
            simp only [initPool, if_neg (by omega : ¬ nproc = 0)] at hg
            cases hg; rfl
          subst hgid
          refine ⟨st, hre, ?_⟩
          rw [hf] at hcs
          unfold sampleMetrics
          rw [if_pos hn]
          have hp2 : trackParallel (single env e.kind arg fun i => streams (st i)) ⟨nproc, 1, false, true, false⟩ (.list (numbered data))
              (anonymous nproc sched) = .ok s.pool := by
            have h1 : trackParallel (single env e.kind arg fun i => streams (st i)) ⟨nproc, 1, false, true, false⟩ (.list (numbered data))
              (anonymous nproc sched) = trackParallel (single env e.kind arg fun i => streams (st i)) ⟨nproc, 1, false, true, false⟩
                (.pair (numbered data) data.length) (anonymous nproc sched) := by
              unfold trackParallel
              rw [parInit_eq_of_resolve _ (.list (numbered data)) (.pair (numbered data) data.length) (by
                simp [TaskArg.resolve, numbered])]
            rw [h1, show numbered data = data.zipIdx.map fun x => (x.2, x.1) from rfl, trackParallel_map]
            exact hpar
          rw [hp2]
          exact hcs
      · rw [if_neg hn] at hcs
        refine ⟨fun i => stAt (singleIn env e.kind arg streams after) data st0 i, fun i =>
          stAt_reach _ _ _ _ (fun x hx => hx) _ .start i, ?_⟩
        unfold sampleMetrics
        rw [if_neg hn, (C34_track_progress _ _ (numbered data) _ rfl).2, ← hcs]
        have h1 := mapM_stAt (singleIn env e.kind arg streams after) data st0 0 (fun i => stAt (singleIn env e.kind arg streams after) data st0 i)
          (by intro j _; rw [Nat.zero_add])
        have h2 : (numbered data).mapM (single env e.kind arg fun i => streams (stAt (singleIn env e.kind arg streams after) data st0 i)) =
            data.zipIdx.mapM (inStates (singleIn env e.kind arg streams after) fun i =>
              stAt (singleIn env e.kind arg streams after) data st0 i) := by
          rw [show numbered data = data.zipIdx.map fun x => (x.2, x.1) from rfl, mapM_map']
          rfl
        rw [h2, h1]
        show _ = some (runSeq (singleIn env e.kind arg streams after) data st0).1
        cases (runSeq (singleIn env e.kind arg streams after) data st0).1 <;> rfl
    obtain ⟨st, hre, hsm⟩ := key
    refine ⟨st, fun d hdd => by cases hdd; exact hre, ?_⟩
    unfold calculateMetrics
    rw [hsm, Option.map_some, Option.map_some, hnames]
    rfl

/-- C78: and such an evaluation ends, if the workers run every sample. -/
theorem C78_evaluate_category_total {σ : Type} (fs : Fs) (env : Env) (e : Ev) (category : Int) (arg : ThresholdArg) (nproc : Nat) (save : Bool)
    (streams : σ → Nat → Nat → Nat → ℚ) (after : Sample → σ → σ) (st0 : σ) (sched : List FleetEvent) (honce : OnceEach sched)
    (hall : ∀ data, categoryData fs e category = .ok data → ∀ i < data.length, ∃ w < nproc, .complete w i ∈ sched) :
    ∃ k out, evaluateCategoryIn fs env e category arg nproc save streams after st0 (sched ++ List.replicate k .next) = some out := by
  unfold evaluateCategoryIn
  cases hd : categoryData fs e category with
  | error er => exact ⟨0, _, rfl⟩
  | ok data =>
    have key : ∃ k cs, sampleMetricsIn (singleIn env e.kind arg streams after) data nproc st0 (sched ++ List.replicate k .next) = some cs := by
      unfold sampleMetricsIn
      by_cases hn : nproc > 1
      · obtain ⟨k, s, h1, h2⟩ := C78_terminates (singleIn env e.kind arg streams after) ⟨nproc, 1, false, true, false⟩ none .absent (.list data)
          st0 sched data data.length rfl rfl (by show 0 < nproc; omega) (by simp) (.inl rfl) honce
          (by intro i hi; exact hall data hd i (by simpa using hi))
        refine ⟨k, ?_⟩
        rw [if_pos hn, h1]
        cases hst : s.pool.status with
        | running => exact absurd hst h2
        | finished => exact ⟨_, by simp only [hst]; rfl⟩
        | raised er => exact ⟨_, by simp only [hst]; rfl⟩
      · exact ⟨0, _, if_neg hn⟩
    obtain ⟨k, cs, hcs⟩ := key
    refine ⟨k, ?_⟩
    simp only [calculateMetricsIn]
    rw [hcs]
    exact ⟨_, rfl⟩

/-- Three samples, two workers: every sample is run once. -/
example : OnceEach [.complete 1 0, .complete 0 2, .complete 1 1] ∧
    ∀ i < 3, ∃ w < 2, FleetEvent.complete w i ∈ [FleetEvent.complete 1 0, .complete 0 2, .complete 1 1] := by
  constructor
  · unfold OnceEach; decide
  · decide

end Evaluate

end EdgeEval.Props
