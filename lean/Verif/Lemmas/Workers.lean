import Verif.Spec.Workers
import Verif.Lemmas.Progress

/-! # Lemmas for C78 -/

namespace EdgeEval.Workers

open EdgeEval EdgeEval.Spec

section
variable {σ α β : Type}

/-! ### chunks -/

theorem chunksOf_get (size : Nat) (hs : 0 < size) (fuel : Nat) (l : List α) (h : l.length ≤ fuel) (i : Nat) :
    (chunksOf size fuel l)[i]? = if i * size < l.length then some ((l.drop (i * size)).take size) else none := by
  induction fuel generalizing l i with
  | zero =>
    have : l = [] := List.length_eq_zero_iff.mp (by omega)
    subst this; simp [chunksOf]
  | succ n ih =>
    cases l with
    | nil => simp [chunksOf]
    | cons x xs =>
      rw [show chunksOf size (n + 1) (x :: xs) = (x :: xs).take size :: chunksOf size n ((x :: xs).drop size) from rfl]
      cases i with
      | zero => simp
      | succ i =>
        rw [List.getElem?_cons_succ, ih ((x :: xs).drop size) (by rw [List.length_drop]; simp only [List.length_cons] at h ⊢; omega) i,
          List.length_drop, List.drop_drop]
        have e : size + i * size = (i + 1) * size := by ring
        rw [e]
        by_cases hlt : (i + 1) * size < (x :: xs).length
        · rw [if_pos hlt, if_pos (by omega)]
        · rw [if_neg hlt, if_neg (by omega)]

theorem zipIdx_drop_take (l : List α) (m n : Nat) : (l.zipIdx.drop m).take n = ((l.drop m).take n).zipIdx m := by
  apply List.ext_getElem?
  intro i
  simp only [List.getElem?_take, List.getElem?_drop, List.getElem?_zipIdx]
  split
  · simp
  · simp

theorem chunksOf_zipIdx (size : Nat) (hs : 0 < size) (l : List α) (i : Nat) :
    (chunksOf size l.zipIdx.length l.zipIdx)[i]? = ((chunksOf size l.length l)[i]?).map (fun c => c.zipIdx (i * size)) := by
  rw [chunksOf_get size hs _ _ (le_refl _), chunksOf_get size hs _ _ (le_refl _), zipIdx_drop_take, List.length_zipIdx]
  split <;> simp

theorem chunksOf_zipIdx_length (size : Nat) (hs : 0 < size) (l : List α) :
    (chunksOf size l.zipIdx.length l.zipIdx).length = (chunksOf size l.length l).length := by
  have key : ∀ i, i < (chunksOf size l.zipIdx.length l.zipIdx).length ↔ i < (chunksOf size l.length l).length := by
    intro i
    rw [← not_le, ← not_le, ← List.getElem?_eq_none_iff, ← List.getElem?_eq_none_iff, chunksOf_zipIdx size hs]
    simp
  rcases lt_trichotomy (chunksOf size l.zipIdx.length l.zipIdx).length (chunksOf size l.length l).length with h | h | h
  · exact absurd ((key _).2 h) (lt_irrefl _)
  · exact h
  · exact absurd ((key _).1 h) (lt_irrefl _)

theorem tasksOf_eq (size count i : Nat) : tasksOf size count i = List.range' (i * size) (min size (count - i * size)) := by
  have key : ∀ m n, (List.range' m n).filter (fun k => decide (k < count)) = List.range' m (min n (count - m)) := by
    intro m n
    induction n generalizing m with
    | zero => simp
    | succ n ih =>
      rw [List.range'_succ, List.filter_cons]
      by_cases h : m < count
      · rw [if_pos (by simpa using h), ih, show min (n + 1) (count - m) = min n (count - (m + 1)) + 1 by omega, List.range'_succ]
      · rw [if_neg (by simpa using h), ih, show min (n + 1) (count - m) = 0 by omega, show min n (count - (m + 1)) = 0 by omega]
        rfl
  exact key _ _

/-! ### one chunk in one process -/

/-- The state in which the `j`-th task of a chunk starts. -/
def stAt (f : StFun σ α β) : List α → σ → Nat → σ
  | [], st, _ => st
  | _ :: _, st, 0 => st
  | x :: xs, st, j + 1 => stAt f xs (f x st).2 j

theorem mapM_stAt (f : StFun σ α β) (c : List α) (s : σ) (m : Nat) (st : Nat → σ) (h : ∀ j < c.length, st (m + j) = stAt f c s j) :
    (c.zipIdx m).mapM (inStates f st) = (runSeq f c s).1 := by
  induction c generalizing s m with
  | nil => rfl
  | cons x xs ih =>
    have h0 : st m = s := by simpa [stAt] using h 0 (by simp)
    have h1 := ih (f x s).2 (m + 1) (by
      intro j hj
      have := h (j + 1) (by simpa using hj)
      rw [show m + 1 + j = m + (j + 1) by omega, this, stAt])
    rw [List.zipIdx_cons, List.mapM_cons, h1, runSeq]
    simp only [inStates, h0]
    rcases hf : f x s with ⟨r | r, s'⟩
    · rfl
    · simp only [bind, Except.bind]
      rcases hr : runSeq f xs s' with ⟨r' | r', s''⟩ <;> rfl

theorem stAt_reach (f : StFun σ α β) (items : List α) (st0 : σ) (c : List α) (hc : ∀ x ∈ c, x ∈ items) (s : σ) (hs : Reach f items st0 s)
    (j : Nat) : Reach f items st0 (stAt f c s j) := by
  induction c generalizing s j with
  | nil => exact hs
  | cons x xs ih =>
    cases j with
    | zero => exact hs
    | succ j => exact ih (fun y hy => hc y (List.mem_cons_of_mem _ hy)) _ (.step (hc x (by simp)) hs) j

theorem runSeq_reach (f : StFun σ α β) (items : List α) (st0 : σ) (c : List α) (hc : ∀ x ∈ c, x ∈ items) (s : σ)
    (hs : Reach f items st0 s) : Reach f items st0 (runSeq f c s).2 := by
  induction c generalizing s with
  | nil => exact hs
  | cons x xs ih =>
    have h1 : Reach f items st0 (f x s).2 := .step (hc x (by simp)) hs
    have h2 := ih (fun y hy => hc y (List.mem_cons_of_mem _ hy)) _ h1
    rw [runSeq]
    rcases hf : f x s with ⟨r | r, s'⟩
    · rw [hf] at h1; exact h1
    · rw [hf] at h2
      simp only at h2 ⊢
      rcases hr : runSeq f xs s' with ⟨r' | r', s''⟩ <;> rw [hr] at h2 <;> exact h2

theorem runFrom_chunk (f : StFun σ α β) (items : List α) (st : Nat → σ) (c : List α) (s : σ) (m : Nat) (rest : List Nat)
    (hi : ∀ j < c.length, items[m + j]? = c[j]?) (h : ∀ j < c.length, st (m + j) = stAt f c s j)
    (hok : ∃ rs, (runSeq f c s).1 = .ok rs) (hr : RunFrom f items st (runSeq f c s).2 rest) :
    RunFrom f items st s (List.range' m c.length ++ rest) := by
  induction c generalizing s m with
  | nil => exact hr
  | cons x xs ih =>
    rw [List.length_cons, List.range'_succ, List.cons_append]
    refine .cons (x := x) (by simpa using hi 0 (by simp)) (by simpa [stAt] using h 0 (by simp)) ?_
    rw [runSeq] at hok hr
    rcases hf : f x s with ⟨r | r, s'⟩
    · rw [hf] at hok; obtain ⟨rs, hrs⟩ := hok; simp at hrs
    · rw [hf] at hok hr
      simp only at hok hr ⊢
      apply ih
      · intro j hj
        have := hi (j + 1) (by simpa using hj)
        rw [show m + 1 + j = m + (j + 1) by omega, this, List.getElem?_cons_succ]
      · intro j hj
        have := h (j + 1) (by simpa using hj)
        rw [show m + 1 + j = m + (j + 1) by omega, this, stAt, hf]
      · rcases hr' : runSeq f xs s' with ⟨r' | r', s''⟩
        · rw [hr'] at hok; obtain ⟨rs, hrs⟩ := hok; simp at hrs
        · exact ⟨r', rfl⟩
      · rcases hr' : runSeq f xs s' with ⟨r' | r', s''⟩ <;> rw [hr'] at hr <;> exact hr

/-! ### the whole pool -/

/-- The state of the worker that runs chunk `i`, when it begins it; `d` if nobody does. -/
def startOf (f : StFun σ α β) (nproc : Nat) (chunks : List (List α)) (d : σ) (i : Nat) : List FleetEvent → (Nat → σ) → σ
  | [], _ => d
  | .next :: rest, procs => startOf f nproc chunks d i rest procs
  | .complete w j :: rest, procs =>
    if w < nproc then
      if j = i then procs w
      else match chunks[j]? with
        | some c => startOf f nproc chunks d i rest (fun v => if v = w then (runSeq f c (procs w)).2 else procs v)
        | none => startOf f nproc chunks d i rest procs
    else startOf f nproc chunks d i rest procs

theorem startOf_reach (f : StFun σ α β) (items : List α) (st0 : σ) (nproc : Nat) (chunks : List (List α))
    (hc : ∀ c ∈ chunks, ∀ x ∈ c, x ∈ items) (d : σ) (hd : Reach f items st0 d) (i : Nat) (sched : List FleetEvent) (procs : Nat → σ)
    (hp : ∀ w, Reach f items st0 (procs w)) : Reach f items st0 (startOf f nproc chunks d i sched procs) := by
  induction sched generalizing procs with
  | nil => exact hd
  | cons ev rest ih =>
    cases ev with
    | next => exact ih _ hp
    | complete w j =>
      rw [startOf]
      split
      · split
        · exact hp w
        · split
          · rename_i c hcj
            apply ih
            intro v
            split
            · exact runSeq_reach f items st0 c (hc c (List.mem_of_getElem? hcj)) _ (hp w)
            · exact hp v
          · exact ih _ hp
      · exact ih _ hp

/-- The chunk numbers of a schedule. -/
def chunkNos (sched : List FleetEvent) : List Nat :=
  sched.filterMap fun ev => match ev with
    | .complete _ i => some i
    | .next => none

theorem onceEach_iff (sched : List FleetEvent) : OnceEach sched ↔ (chunkNos sched).Nodup := Iff.rfl

/-- What must hold of the table of starting states for a remaining schedule. -/
def Agree (f : StFun σ α β) (nproc : Nat) (chunks : List (List α)) (d : σ) (S : Nat → σ) (sched : List FleetEvent) (procs : Nat → σ) : Prop :=
  ∀ i ∈ chunkNos sched, S i = startOf f nproc chunks d i sched procs

theorem agree_next {f : StFun σ α β} {nproc : Nat} {chunks : List (List α)} {d : σ} {S : Nat → σ} {rest : List FleetEvent} {procs : Nat → σ}
    (h : Agree f nproc chunks d S (.next :: rest) procs) : Agree f nproc chunks d S rest procs := by
  intro i hi
  exact h i (by simpa [chunkNos] using hi)

theorem agree_complete {f : StFun σ α β} {nproc : Nat} {chunks : List (List α)} {d : σ} {S : Nat → σ} {rest : List FleetEvent}
    {procs : Nat → σ} {w j : Nat} (hn : (chunkNos (.complete w j :: rest)).Nodup)
    (h : Agree f nproc chunks d S (.complete w j :: rest) procs) :
    (w < nproc → S j = procs w ∧
      ∀ c, chunks[j]? = some c → Agree f nproc chunks d S rest (fun v => if v = w then (runSeq f c (procs w)).2 else procs v)) ∧
    ((¬ w < nproc ∨ chunks[j]? = none) → Agree f nproc chunks d S rest procs) := by
  have e : chunkNos (.complete w j :: rest) = j :: chunkNos rest := rfl
  rw [e, List.nodup_cons] at hn
  have hne : ∀ i ∈ chunkNos rest, j ≠ i := fun i hi hij => hn.1 (hij ▸ hi)
  refine ⟨fun hw => ⟨?_, ?_⟩, ?_⟩
  · have := h j (by rw [e]; simp)
    rw [startOf, if_pos hw, if_pos rfl] at this
    exact this
  · intro c hc i hi
    have := h i (by rw [e]; exact List.mem_cons_of_mem _ hi)
    rw [startOf, if_pos hw, if_neg (hne i hi), hc] at this
    exact this
  · intro hor i hi
    have := h i (by rw [e]; exact List.mem_cons_of_mem _ hi)
    rw [startOf] at this
    split at this
    · rename_i hw
      rcases hor with hor | hor
      · exact absurd hw hor
      · rw [if_neg (hne i hi), hor] at this
        exact this
    · exact this

theorem nodup_rest {ev : FleetEvent} {rest : List FleetEvent} (hn : (chunkNos (ev :: rest)).Nodup) : (chunkNos rest).Nodup := by
  cases ev with
  | next => simpa [chunkNos] using hn
  | complete w j =>
    rw [show chunkNos (.complete w j :: rest) = j :: chunkNos rest from rfl, List.nodup_cons] at hn
    exact hn.2

/-- A pool of processes with state behaves like a pool for the function that knows the starting states. -/
theorem fleet_pool (f : StFun σ α β) (a : ParArgs) (hs : 0 < a.chunksize) (items : List α) (d : σ) (S st : Nat → σ)
    (hst : ∀ i c, (chunksOf a.chunksize items.length items)[i]? = some c → ∀ j < c.length, st (i * a.chunksize + j) = stAt f c (S i) j)
    (sched : List FleetEvent) (hn : (chunkNos sched).Nodup) (s : Fleet σ β)
    (hag : Agree f a.nproc (chunksOf a.chunksize items.length items) d S sched s.procs) :
    (sched.foldl (fleetStep f a (chunksOf a.chunksize items.length items)) s).pool =
      (anonymous a.nproc sched).foldl (poolStep (inStates f st) a (chunksOf a.chunksize items.zipIdx.length items.zipIdx)) s.pool := by
  induction sched generalizing s with
  | nil => rfl
  | cons ev rest ih =>
    have hn' := nodup_rest hn
    cases ev with
    | next =>
      rw [List.foldl_cons, show anonymous a.nproc (.next :: rest) = .next :: anonymous a.nproc rest from rfl, List.foldl_cons,
        ih hn' (fleetStep f a (chunksOf a.chunksize items.length items) s .next) (agree_next hag)]
      congr 1
      simp only [fleetStep, poolStep, chunksOf_zipIdx_length _ hs]
    | complete w i =>
      obtain ⟨h1, h2⟩ := agree_complete hn hag
      rw [List.foldl_cons]
      by_cases hw : w < a.nproc
      · rw [show anonymous a.nproc (.complete w i :: rest) = .complete i :: anonymous a.nproc rest by simp [anonymous, hw], List.foldl_cons]
        cases hc : (chunksOf a.chunksize items.length items)[i]? with
        | none =>
          simp only [fleetStep, if_pos hw, hc, poolStep, chunksOf_zipIdx _ hs, Option.map_none]
          exact ih hn' _ (h2 (.inr hc))
        | some c =>
          obtain ⟨hS, h3⟩ := h1 hw
          simp only [fleetStep, if_pos hw, hc, poolStep, chunksOf_zipIdx _ hs, Option.map_some]
          rw [ih hn' _ (h3 c hc), mapM_stAt f c (S i) (i * a.chunksize) st (hst i c hc), hS]
      · rw [show anonymous a.nproc (.complete w i :: rest) = anonymous a.nproc rest by simp [anonymous, hw],
          show fleetStep f a (chunksOf a.chunksize items.length items) s (.complete w i) = s by simp [fleetStep, hw]]
        exact ih hn' _ (h2 (.inl hw))

/-- Each worker runs its chunks one after the other. -/
theorem fleet_worker (f : StFun σ α β) (a : ParArgs) (hs : 0 < a.chunksize) (items : List α) (d : σ) (S st : Nat → σ)
    (hst : ∀ i c, (chunksOf a.chunksize items.length items)[i]? = some c → ∀ j < c.length, st (i * a.chunksize + j) = stAt f c (S i) j)
    (hok : ∀ i c, (chunksOf a.chunksize items.length items)[i]? = some c → ∃ rs, (runSeq f c (S i)).1 = .ok rs)
    (w : Nat) (hw : w < a.nproc) (sched : List FleetEvent) (hn : (chunkNos sched).Nodup) (procs : Nat → σ)
    (hag : Agree f a.nproc (chunksOf a.chunksize items.length items) d S sched procs) :
    RunFrom f items st (procs w)
      ((chunksRun w sched).flatMap (tasksOf a.chunksize items.length)) := by
  induction sched generalizing procs with
  | nil => exact .nil _
  | cons ev rest ih =>
    have hn' := nodup_rest hn
    cases ev with
    | next => exact ih hn' _ (agree_next hag)
    | complete v i =>
      obtain ⟨h1, h2⟩ := agree_complete hn hag
      cases hc : (chunksOf a.chunksize items.length items)[i]? with
      | none =>
        have hget := chunksOf_get a.chunksize hs items.length items (le_refl _) i
        rw [hc] at hget
        split at hget
        · cases hget
        · rename_i hge
          have h0 : tasksOf a.chunksize items.length i = [] := by
            rw [tasksOf_eq, show min a.chunksize (items.length - i * a.chunksize) = 0 by omega]; rfl
          have := ih hn' _ (h2 (.inr hc))
          by_cases hv : v = w
          · rw [show chunksRun w (.complete v i :: rest) = i :: chunksRun w rest by simp [chunksRun, hv], List.flatMap_cons, h0]
            exact this
          · rw [show chunksRun w (.complete v i :: rest) = chunksRun w rest by simp [chunksRun, hv]]
            exact this
      | some c =>
        by_cases hv : v = w
        · subst hv
          obtain ⟨hS, h3⟩ := h1 hw
          rw [show chunksRun v (.complete v i :: rest) =
            i :: chunksRun v rest by simp [chunksRun], List.flatMap_cons, tasksOf_eq]
          have hget := chunksOf_get a.chunksize hs items.length items (le_refl _) i
          rw [hc] at hget
          split at hget
          · simp only [Option.some.injEq] at hget
            have hlen : c.length = min a.chunksize (items.length - i * a.chunksize) := by rw [hget]; simp
            rw [← hlen]
            refine runFrom_chunk f items st c (procs v) (i * a.chunksize) _ ?_ ?_ ?_ ?_
            · intro j hj
              rw [hget, List.getElem?_take, if_pos (by omega), List.getElem?_drop]
            · rw [← hS]; exact hst i c hc
            · rw [← hS]; exact hok i c hc
            · have := ih hn' _ (h3 c hc)
              simpa using this
          · cases hget
        · rw [show chunksRun w (.complete v i :: rest) =
            chunksRun w rest by simp [chunksRun, hv]]
          by_cases hvn : v < a.nproc
          · have := ih hn' _ ((h1 hvn).2 c hc)
            simpa [Ne.symm hv] using this
          · exact ih hn' _ (h2 (.inl hvn))

end

end EdgeEval.Workers
