import Verif.Lemmas.CsaLife
import Verif.Props.CsaMem

/-!
# Property theorems C77: the life of a `CSA` object

"Fails" is an arbitrary schedule of failing memory requests; `dbg = false` is a build with `NDEBUG`.
-/

namespace EdgeEval.Props

open EdgeEval EdgeEval.CsaLife

/-- The object holds the block at address `p`, obtained in the way `k`. -/
def HoldsBlock (o : Obj) (p : Nat) (k : Kind) : Prop :=
  (k = .malloc ∧ some p ∈ [o.arcs, o.lhs, o.rhs, o.stack, o.bottom]) ∨
    (k = .newArr ∧ some p ∈ [o.resA, o.resB, o.resCosts])

/-- Addresses from `next` on have not been handed out. -/
def FreshHeap (h : CsaLife.Heap) : Prop := ∀ p, h.next ≤ p → h.live p = none

/-- The program never copies an object. -/
def NoCopies (cs : List Cmd) : Prop := ∀ c ∈ cs, (∃ v n m g, c = .make v n m g) ∨ ∃ v, c = .drop v

/-- What holds between the commands of a program without copies. -/
structure LifeInv (h0 h : CsaLife.Heap) (s : Vars) : Prop where
  start : FreshHeap h0
  le : h0.next ≤ h.next
  fresh : FreshHeap h
  obj : ∀ v o, s v = some o → ∃ b, o = objAt b o.edges ∧ h0.next ≤ b ∧ b + 10 ≤ h.next
  apart : ∀ v w b b' e e', s v = some (objAt b e) → s w = some (objAt b' e') → v ≠ w → b + 10 ≤ b' ∨ b' + 10 ≤ b
  live : ∀ p k, h.live p = some k ↔ h0.live p = some k ∨ ∃ v o, s v = some o ∧ HoldsBlock o p k

theorem holds_objAt {b p : Nat} {e : List (Int × Int × Int)} {k : Kind} : HoldsBlock (objAt b e) p k ↔
    (k = .malloc ∧ (p = b ∨ p = b + 1 ∨ p = b + 2 ∨ p = b + 5 ∨ p = b + 6)) ∨
      (k = .newArr ∧ (p = b + 7 ∨ p = b + 8 ∨ p = b + 9)) := by
  simp [HoldsBlock, objAt]

theorem liveAt_some {l : Nat → Option Kind} {b p : Nat} {k : Kind} {e : List (Int × Int × Int)} (hl : ∀ q, b ≤ q → l q = none) :
    liveAt l b p = some k ↔ l p = some k ∨ HoldsBlock (objAt b e) p k := by
  rw [holds_objAt]
  unfold liveAt
  rcases Nat.lt_or_ge p b with hp | hp
  · rw [if_neg (by omega), if_neg (by omega), if_neg (by omega)]
    constructor
    · exact .inl
    · rintro (h | ⟨_, h⟩ | ⟨_, h⟩)
      · exact h
      · omega
      · omega
  · rw [hl p hp]
    split_ifs with h1 h2 h3
    · cases k <;> simp <;> omega
    · cases k <;> simp <;> omega
    · simp
      omega
    · simp
      omega

theorem LifeInv.make {fl : ℚ → ℚ} {fuel : Nat} {dbg : Bool} {fails : Nat → Bool} {n m : Int} {g : Option (CsaMem.Blk Int)}
    {h0 h h' : CsaLife.Heap} {s : Vars} (I : LifeInv h0 h s) {v : Nat} (hv : s v = none) {o : Obj}
    (hr : construct fl fuel dbg fails n m g h = (.ok o, h')) : LifeInv h0 h' (setVar s v (some o)) := by
  obtain ⟨ho, rfl, -, -⟩ := construct_ok hr
  have hfr := I.fresh
  have hle := I.le
  refine ⟨I.start, by simp; omega, ?_, ?_, ?_, ?_⟩
  · intro p hp
    simp only at hp
    simp only [liveAt]
    rw [if_neg (by omega), if_neg (by omega), if_neg (by omega)]
    exact hfr p (by omega)
  · intro w o' hw
    simp only [setVar] at hw
    split_ifs at hw with h1
    · cases hw
      exact ⟨h.next, ho, hle, le_refl _⟩
    · obtain ⟨b, h1, h2, h3⟩ := I.obj w o' hw
      exact ⟨b, h1, h2, by simp; omega⟩
  · intro w w' b b' e e' hw hw' hne
    simp only [setVar] at hw hw'
    rw [ho] at hw hw'
    split_ifs at hw hw' with h1 h2 h2
    · exact absurd (h1.trans h2.symm) hne
    · obtain ⟨b1, e1, -, h3⟩ := I.obj w' _ hw'
      simp only [objAt, Obj.mk.injEq, Option.some.injEq] at e1 hw
      right
      omega
    · obtain ⟨b1, e1, -, h3⟩ := I.obj w _ hw
      simp only [objAt, Obj.mk.injEq, Option.some.injEq] at e1 hw'
      left
      omega
    · exact I.apart w w' b b' e e' hw hw' hne
  · intro p k
    rw [liveAt_some (e := o.edges) hfr, I.live p k, ← ho]
    constructor
    · rintro ((h1 | ⟨w, o', h1, h2⟩) | h1)
      · exact .inl h1
      · refine .inr ⟨w, o', ?_, h2⟩
        have : w ≠ v := fun e => by simp [e, hv] at h1
        simp [setVar, this, h1]
      · exact .inr ⟨v, o, by simp [setVar], h1⟩
    · rintro (h1 | ⟨w, o', h1, h2⟩)
      · exact .inl (.inl h1)
      · simp only [setVar] at h1
        split_ifs at h1 with hw
        · cases h1
          exact .inr h2
        · exact .inl (.inr ⟨w, o', h1, h2⟩)

theorem LifeInv.drop {h0 h : CsaLife.Heap} {s : Vars} (I : LifeInv h0 h s) {v : Nat} {o : Obj} (hv : s v = some o) :
    ∃ h', destroy o h = (.ok (), h') ∧ LifeInv h0 h' (setVar s v none) := by
  obtain ⟨b, ho, hb0, hb⟩ := I.obj v o hv
  have hm : ∀ p k, HoldsBlock o p k → h.live p = some k := fun p k hp => (I.live p k).2 (.inr ⟨v, o, hv, hp⟩)
  rw [ho] at hm
  rw [ho]
  refine ⟨_, destroy_all (fun i hi => hm _ _ (holds_objAt.2 (.inl ⟨rfl, by omega⟩)))
    (fun i hi => hm _ _ (holds_objAt.2 (.inr ⟨rfl, by omega⟩))), I.start, I.le, ?_, ?_, ?_, ?_⟩
  · intro p hp
    dsimp only
    split_ifs
    · rfl
    · exact I.fresh p hp
  · intro w o' hw
    simp only [setVar] at hw
    split_ifs at hw
    exact I.obj w o' hw
  · intro w w' b1 b2 e1 e2 hw hw' hne
    simp only [setVar] at hw hw'
    split_ifs at hw hw'
    exact I.apart w w' b1 b2 e1 e2 hw hw' hne
  · intro p k
    dsimp only
    split_ifs with hp
    · constructor
      · intro h1
        simp at h1
      · rintro (h1 | ⟨w, o', h1, h2⟩)
        · rw [I.start p (by omega)] at h1
          simp at h1
        · exfalso
          simp only [setVar] at h1
          split_ifs at h1 with hw
          obtain ⟨b', ho', -, -⟩ := I.obj w o' h1
          rw [ho'] at h1 h2
          rw [holds_objAt] at h2
          rw [ho] at hv
          have := I.apart v w b b' _ _ hv h1 (Ne.symm hw)
          omega
    · rw [I.live p k]
      refine or_congr_right ⟨?_, ?_⟩
      · rintro ⟨w, o', h1, h2⟩
        refine ⟨w, o', ?_, h2⟩
        have : w ≠ v := by
          rintro rfl
          rw [hv] at h1
          cases h1
          rw [ho, holds_objAt] at h2
          omega
        simp [setVar, this, h1]
      · rintro ⟨w, o', h1, h2⟩
        simp only [setVar] at h1
        split_ifs at h1
        exact ⟨w, o', h1, h2⟩

theorem life_run {fl : ℚ → ℚ} {fuel : Nat} {dbg : Bool} {fails : Nat → Bool} {h0 : CsaLife.Heap} :
    ∀ (cs : List Cmd) (s : Vars) (h : CsaLife.Heap), LifeInv h0 h s → NoCopies cs →
      (CsaLife.run fl fuel dbg fails s cs h).1 ≠ .error .badFree ∧
      ∀ s' h', CsaLife.run fl fuel dbg fails s cs h = (.ok s', h') → LifeInv h0 h' s'
  | [], s, h, I, _ => by
    simp only [CsaLife.run, pure_def]
    refine ⟨by simp, fun s' h' he => ?_⟩
    obtain ⟨h1, rfl⟩ := Prod.mk.inj he
    cases h1
    exact I
  | c :: cs, s, h, I, hc => by
    have hcs : NoCopies cs := fun c' h' => hc c' (List.mem_cons_of_mem _ h')
    rw [CsaLife.run]
    have key : (step fl fuel dbg fails s c h).1 ≠ .error .badFree ∧
        ∀ s1 h1, step fl fuel dbg fails s c h = (.ok s1, h1) → LifeInv h0 h1 s1 := by
      rcases hc c List.mem_cons_self with ⟨v, n, m, g, rfl⟩ | ⟨v, rfl⟩
      · simp only [step]
        split_ifs with hv
        · refine ⟨bind_fst_ne (construct_no_badFree _ _ _ _ _ _ _ _) (fun a h1 _ => by simp [pure_def]), fun s1 h1 hr => ?_⟩
          rw [bind_eq_ok] at hr
          obtain ⟨o, h2, ho, hr⟩ := hr
          rw [pure_def] at hr
          obtain ⟨e1, rfl⟩ := Prod.mk.inj hr
          cases e1
          exact I.make hv ho
        · simp [stop]
      · simp only [step]
        rcases hv : s v with _ | o
        · simp [stop]
        · obtain ⟨h2, hd, I2⟩ := I.drop hv
          dsimp only
          rw [bind_ok hd, pure_def]
          refine ⟨by simp, fun s1 h1 hr => ?_⟩
          obtain ⟨e1, rfl⟩ := Prod.mk.inj hr
          cases e1
          exact I2
    refine ⟨bind_fst_ne key.1 fun s1 h1 hs => (life_run cs s1 h1 (key.2 s1 h1 hs) hcs).1, fun s' h' hr => ?_⟩
    rw [bind_eq_ok] at hr
    obtain ⟨s1, h1, hs, hr⟩ := hr
    exact (life_run cs s1 h1 (key.2 s1 h1 hs) hcs).2 s' h' hr

theorem lifeInv_start {h : CsaLife.Heap} (hf : FreshHeap h) : LifeInv h h (fun _ => none) :=
  ⟨hf, le_refl _, hf, by simp, by simp, by simp⟩

/-- C77: in a program that declares `CSA` objects and lets them go in any order (on any graphs, with any memory requests
failing), nothing is ever freed twice or freed that was not allocated that way, and between two commands the allocated blocks
are those from before the program and those held by the objects still alive. -/
theorem C77_no_leak (fl : ℚ → ℚ) (fuel : Nat) (dbg : Bool) (fails : Nat → Bool) (h : CsaLife.Heap) (hf : FreshHeap h) (cs : List Cmd)
    (hc : NoCopies cs) :
    (CsaLife.run fl fuel dbg fails (fun _ => none) cs h).1 ≠ .error .badFree ∧
    ∀ s h', CsaLife.run fl fuel dbg fails (fun _ => none) cs h = (.ok s, h') →
      (∀ p k, h'.live p = some k ↔ h.live p = some k ∨ ∃ v o, s v = some o ∧ HoldsBlock o p k) ∧
      ((∀ v, s v = none) → h'.live = h.live) := by
  obtain ⟨h1, h2⟩ := life_run (fl := fl) (fuel := fuel) (dbg := dbg) (fails := fails) cs _ h (lifeInv_start hf) hc
  refine ⟨h1, fun s h' hr => ⟨(h2 s h' hr).live, fun hn => ?_⟩⟩
  funext p
  have h3 := (h2 s h' hr).live p
  simp only [hn, reduceCtorEq, false_and, exists_const] at h3
  have h3 : ∀ k, h'.live p = some k ↔ h.live p = some k := fun k => (h3 k).trans (by simp)
  rcases hp : h.live p with _ | k
  · rcases hp' : h'.live p with _ | k'
    · rfl
    · rw [(h3 k').1 hp'] at hp
      cases hp
  · exact (h3 k).2 hp

/-- C77: constructing one object needs ten requests. If none fails the object holds eight blocks of its own, no two of them
the same, and the destructor gives back exactly these. -/
theorem C77_object (fl : ℚ → ℚ) (fuel : Nat) (dbg : Bool) (fails : Nat → Bool) (n m : Int) (g : Option (CsaMem.Blk Int))
    (h h' : CsaLife.Heap) (o : Obj) (hf : FreshHeap h) (hr : construct fl fuel dbg fails n m g h = (.ok o, h')) :
    h'.tries = h.tries + 10 ∧ (∀ i, i < 10 → fails (h.tries + i) = false) ∧
    (∃ ps : List Nat, ps.length = 8 ∧ ps.Nodup ∧
      [o.arcs, o.lhs, o.rhs, o.stack, o.bottom, o.resA, o.resB, o.resCosts] = ps.map some ∧ ∀ p ∈ ps, h.live p = none) ∧
    (∀ p k, h'.live p = some k ↔ h.live p = some k ∨ HoldsBlock o p k) ∧
    destroy o h' = (.ok (), { h' with live := h.live }) := by
  obtain ⟨ho, rfl, h10, -⟩ := construct_ok hr
  have hl : ∀ p k, liveAt h.live h.next p = some k ↔ h.live p = some k ∨ HoldsBlock o p k := by
    intro p k
    rw [ho]
    exact liveAt_some hf
  refine ⟨rfl, h10, ⟨[h.next, h.next + 1, h.next + 2, h.next + 5, h.next + 6, h.next + 7, h.next + 8, h.next + 9], rfl, ?_, ?_, ?_⟩,
    hl, ?_⟩
  · simp
  · rw [ho]
    rfl
  · intro p hp
    apply hf
    simp only [List.mem_cons, List.not_mem_nil, or_false] at hp
    omega
  · rw [ho, destroy_all]
    · congr 2
      funext p
      dsimp only
      split_ifs with hp
      · exact (hf p (by omega)).symm
      · simp only [liveAt]
        split_ifs with h1 h2 h3
        · omega
        · omega
        · exact (hf p (by omega)).symm
        · rfl
    · intro i hi
      simp only [liveAt]
      rw [if_pos (by omega)]
    · intro i hi
      simp only [liveAt]
      rw [if_neg (by omega), if_pos (by omega)]

/-- C77: what a failing memory request leads to, for every schedule of failures. Arguments that the assertions accept, a graph
that parses and on which the solver has a result:
the requests 0, 1, 3, 4 (arcs, left nodes, degrees, arc list) are checked: `exit(1)` with the message "Can't obtain enough
memory"; the request 2 (right nodes) is not: a null pointer is used; the requests 5 and 6 (stack): `exit(9)`; the requests 7–9
(results): the exception `bad_alloc`, and what was allocated stays allocated. -/
theorem C77_failed_request (fl : ℚ → ℚ) (fuel : Nat) (dbg : Bool) (fails : Nat → Bool) (n m : Int) (g : CsaMem.Blk Int)
    (h : CsaLife.Heap) (edges : List (Int × Int × Int)) (hn : 0 < n) (hm : 0 < m) (he : n % 2 = 0)
    (hs : CsaMem.solve fl fuel n.toNat m.toNat g = .ok edges) :
    let bad := fun i => fails (h.tries + i) = true
    let r := (construct fl fuel dbg fails n m (some g) h).1
    (bad 0 ∨ bad 1 ∨ bad 3 ∨ bad 4 →
      r = .error (.exit 1 ["CSA: Error while parsing the input: ", "Can't obtain enough memory to solve this problem.", " \n"])) ∧
    (¬ bad 0 → ¬ bad 1 → ¬ bad 3 → ¬ bad 4 → bad 2 → r = .error (.memory .nullPointer)) ∧
    ((∀ i, i < 5 → ¬ bad i) → bad 5 ∨ bad 6 → r = .error (.exit 9 ["Insufficient memory.\n"])) ∧
    ((∀ i, i < 7 → ¬ bad i) → bad 7 ∨ bad 8 ∨ bad 9 → r = .error .badAlloc) ∧
    ((∀ i, i < 10 → ¬ bad i) → r = .ok (objAt h.next edges)) := by
  intro bad r
  obtain ⟨x, hp⟩ : ∃ x, CsaMem.parse n.toNat m.toNat g = .ok x := by
    rcases hp : CsaMem.parse n.toNat m.toNat g with e | x
    · simp [CsaMem.solve, hp, bind, Except.bind] at hs
    · exact ⟨x, rfl⟩
  have hr : r = (construct fl fuel dbg fails n m (some g) h).1 := rfl
  have hbad : ∀ i, bad i ↔ fails (h.tries + i) = true := fun i => Iff.rfl
  have hnb : ∀ i, ¬ bad i ↔ fails (h.tries + i) = false := fun i => by rw [hbad, Bool.not_eq_true]
  have hp1 := parse_fst fails n.toNat m.toNat g h
  rw [hp] at hp1
  unfold construct at hr
  rw [if_neg (by simp [hn, hm, he])] at hr
  dsimp only at hr
  refine ⟨fun h1 => ?_, fun h0 h1 h3 h4 h2 => ?_, fun h1 h2 => ?_, fun h1 h2 => ?_, fun h1 => ?_⟩
  · rw [if_pos (show fails h.tries = true ∨ fails (h.tries + 1) = true ∨ fails (h.tries + 3) = true ∨ fails (h.tries + 4) = true from h1)] at hp1
    rw [hr, bind_def]
    generalize parse fails n.toNat m.toNat g h = q at hp1 ⊢
    obtain ⟨q1, q2⟩ := q
    dsimp only at hp1
    subst hp1
    rfl
  · rw [if_neg (by rw [hnb] at h0 h1 h3 h4; simp_all), if_pos h2] at hp1
    rw [hr, bind_def]
    generalize parse fails n.toNat m.toNat g h = q at hp1 ⊢
    obtain ⟨q1, q2⟩ := q
    dsimp only at hp1
    subst hp1
    rfl
  · rw [bind_ok (parse_all (fun i hi => (hnb i).1 (h1 i hi)) hp)] at hr
    have h5 := stCreate_fst fails ⟨fun p => if p = h.next ∨ p = h.next + 1 ∨ p = h.next + 2 then some .malloc
        else if p = h.next + 3 ∨ p = h.next + 4 then none else h.live p, h.next + 5, h.tries + 5⟩
    rw [if_pos (by simpa [Nat.add_assoc, hbad] using h2)] at h5
    rw [hr, bind_def]
    generalize stCreate fails _ = q at h5 ⊢
    obtain ⟨q1, q2⟩ := q
    dsimp only at h5
    subst h5
    rfl
  · have h5 := (hnb 5).1 (h1 5 (by omega))
    have h6 := (hnb 6).1 (h1 6 (by omega))
    rw [bind_ok (parse_all (fun i hi => (hnb i).1 (h1 i (by omega))) hp), bind_ok (stCreate_all (by simpa using h5) (by simpa using h6)),
      hs] at hr
    dsimp only at hr
    rw [hr]
    by_cases b7 : bad 7
    · rw [bind_err (newArr_fail _ _ (by simpa using b7))]
    rw [bind_ok (newArr_ok _ _ (by simpa using (hnb 7).1 b7))]
    by_cases b8 : bad 8
    · rw [bind_err (newArr_fail _ _ (by simpa using b8))]
    rw [bind_ok (newArr_ok _ _ (by simpa using (hnb 8).1 b8))]
    have b9 : bad 9 := by tauto
    rw [bind_err (newArr_fail _ _ (by simpa using b9))]
  · have := construct_all (fl := fl) (fuel := fuel) (dbg := dbg) (fails := fails) (h := h) (.inr ⟨hn, hm, he⟩)
      (fun i hi => (hnb i).1 (h1 i hi)) hp hs
    change (construct fl fuel dbg fails n m (some g) h).1 = _
    rw [this]

/-- C77, finding: when a request of `store_results` fails the exception leaves the constructor, so the destructor does not run:
the five blocks obtained with `malloc` stay allocated, and nothing points to them any more. -/
theorem C77_bad_alloc_leaks (fl : ℚ → ℚ) (fuel : Nat) (dbg : Bool) (fails : Nat → Bool) (n m : Int) (g : CsaMem.Blk Int)
    (h h' : CsaLife.Heap) (hf : FreshHeap h) (hr : construct fl fuel dbg fails n m (some g) h = (.error .badAlloc, h')) :
    ∃ ps : List Nat, ps.length = 5 ∧ ps.Nodup ∧ ∀ p ∈ ps, h.live p = none ∧ h'.live p = some .malloc := by
  unfold construct at hr
  split_ifs at hr with harg
  · simp [stop] at hr
  dsimp only at hr
  have hp1 := parse_fst fails n.toNat m.toNat g h
  rcases hpr : parse fails n.toNat m.toNat g h with ⟨e | x, h1⟩
  · rw [bind_err hpr] at hr
    obtain ⟨e1, -⟩ := Prod.mk.inj hr
    rw [hpr] at hp1
    cases e1
    exfalso
    dsimp only at hp1
    by_cases hn : fails h.tries ∨ fails (h.tries + 1) ∨ fails (h.tries + 3) ∨ fails (h.tries + 4)
    · rw [if_pos hn] at hp1
      simp [nomemExit] at hp1
    · rw [if_neg hn] at hp1
      rcases hp : CsaMem.parse n.toNat m.toNat g with e | x
      · cases e <;> simp [hp, badArcExit] at hp1
      · rw [hp] at hp1
        dsimp only at hp1
        by_cases h2 : fails (h.tries + 2) = true
        · rw [if_pos h2] at hp1
          simp at hp1
        · rw [if_neg h2] at hp1
          simp at hp1
  · rw [bind_ok hpr] at hr
    obtain ⟨hf5, y, hy⟩ := parse_ok hpr
    rw [parse_all hf5 hy] at hpr
    obtain ⟨e1, rfl⟩ := Prod.mk.inj hpr
    have e1 := Except.ok.inj e1
    subst e1
    by_cases f5 : fails (h.tries + 5) = true
    · simp [bind_def, stCreate, malloc, f5, stop] at hr
    by_cases f6 : fails (h.tries + 6) = true
    · simp [bind_def, stCreate, malloc, f5, f6, stop] at hr
    rw [Bool.not_eq_true] at f5 f6
    rw [bind_ok (stCreate_all (by simpa using f5) (by simpa using f6))] at hr
    have hlive : ∀ p, (p = h.next ∨ p = h.next + 1 ∨ p = h.next + 2 ∨ p = h.next + 5 ∨ p = h.next + 6) →
        h'.live p = some .malloc := by
      intro p hp
      rcases hs : CsaMem.solve fl fuel n.toNat m.toNat g with e | edges
      · simp [hs, stop] at hr
      simp only [hs] at hr
      by_cases f7 : fails (h.tries + 7) = true
      · rw [bind_err (newArr_fail _ _ (by simpa using f7))] at hr
        obtain ⟨-, rfl⟩ := Prod.mk.inj hr
        dsimp only
        split_ifs <;> first | rfl | omega
      rw [Bool.not_eq_true] at f7
      rw [bind_ok (newArr_ok _ _ (by simpa using f7))] at hr
      by_cases f8 : fails (h.tries + 8) = true
      · rw [bind_err (newArr_fail _ _ (by simpa using f8))] at hr
        obtain ⟨-, rfl⟩ := Prod.mk.inj hr
        dsimp only [CsaLife.upd]
        split_ifs <;> first | rfl | omega
      rw [Bool.not_eq_true] at f8
      rw [bind_ok (newArr_ok _ _ (by simpa using f8))] at hr
      by_cases f9 : fails (h.tries + 9) = true
      · rw [bind_err (newArr_fail _ _ (by simpa using f9))] at hr
        obtain ⟨-, rfl⟩ := Prod.mk.inj hr
        dsimp only [CsaLife.upd]
        split_ifs <;> first | rfl | omega
      rw [Bool.not_eq_true] at f9
      rw [bind_ok (newArr_ok _ _ (by simpa using f9)), pure_def] at hr
      simp at hr
    refine ⟨[h.next, h.next + 1, h.next + 2, h.next + 5, h.next + 6], rfl, by simp, fun p hp => ?_⟩
    simp only [List.mem_cons, List.not_mem_nil, or_false] at hp
    exact ⟨hf p (by omega), hlive p hp⟩

/-- C77: the assertions of the constructor reject sizes that are not positive, an odd number of nodes and a missing graph before
anything is allocated. -/
theorem C77_assertions (fl : ℚ → ℚ) (fuel : Nat) (fails : Nat → Bool) (n m : Int) (g : Option (CsaMem.Blk Int)) (h : CsaLife.Heap)
    (ha : n ≤ 0 ∨ m ≤ 0 ∨ g = none ∨ n % 2 = 1) :
    construct fl fuel true fails n m g h = (.error .assertion, h) := by
  unfold construct
  rw [if_pos]
  · rfl
  refine ⟨rfl, fun hh => ?_⟩
  rcases ha with h1 | h1 | h1 | h1
  · omega
  · omega
  · exact hh.2.2.1 h1
  · omega

/-- C77: an arc with an end outside the graph ends the process with a message about the arc, whatever the build. -/
theorem C77_bad_arc (fl : ℚ → ℚ) (fuel : Nat) (dbg : Bool) (fails : Nat → Bool) (N : Nat) (hN : 0 < N) (g : List InArc)
    (hg : ¬ WellFormedGraph N g) (h : CsaLife.Heap) (hf : ∀ i, i < 5 → fails (h.tries + i) = false) :
    (construct fl fuel dbg fails (2 * N) g.length (some (CsaMem.graphBlk g)) h).1 =
      .error (.exit 1 ["CSA: Error while parsing the input: ", "Error reading an arc descriptor from the input.", " \n"]) := by
  have hm : 0 < g.length := by
    rcases g with _ | ⟨a, g⟩
    · exact absurd (by simp [WellFormedGraph]) hg
    · simp
  have hp := CsaMem.parse_bad hg
  have hp1 := parse_fst fails (2 * N) g.length (CsaMem.graphBlk g) h
  have h0 := hf 0 (by omega)
  simp only [Nat.add_zero] at h0
  rw [hp, if_neg (by simp [h0, hf 1 (by omega), hf 3 (by omega), hf 4 (by omega)])] at hp1
  dsimp only at hp1
  unfold construct
  rw [if_neg (by
    rintro ⟨-, hh⟩
    exact hh ⟨by omega, by omega, by simp, by omega⟩)]
  dsimp only
  rw [bind_def, show ((2 * N : Int)).toNat = 2 * N by omega, show ((g.length : Int)).toNat = g.length by omega]
  generalize parse fails (2 * N) g.length (CsaMem.graphBlk g) h = q at hp1 ⊢
  obtain ⟨q1, q2⟩ := q
  dsimp only at hp1
  subst hp1
  rfl

/-- C77: on a graph with a perfect matching, of moderate size, the constructor returns (if no request fails) an object with as
many edges as there are left nodes; `cost()` is the sum of their costs and no perfect matching costs less; `edge(i)` is the
`i`-th edge, and fails its assertion outside the range. -/
theorem C77_result (fl : ℚ → ℚ) (H : RoundsNearest fl) (dbg : Bool) (N : Nat) (g M : List InArc) (hg : WellFormedGraph N g)
    (hM : IsPerfectMatching N g M) (hC : ∃ a ∈ g, a.cost ≠ 0) (hsz : 2100 * N ^ 2 * (N * csaMaxCost g + 9) ≤ 2 ^ 53)
    (h : CsaLife.Heap) :
    ∃ F, ∀ fuel, F ≤ fuel → ∃ o h' out,
      construct fl fuel dbg (fun _ => false) (2 * N) g.length (some (CsaMem.graphBlk g)) h = (.ok o, h') ∧
      IsPerfectMatching N g out ∧ (∀ M', IsPerfectMatching N g M' → totalCost out ≤ totalCost M') ∧
      o.count = N ∧ o.cost = totalCost out ∧
      (∀ i, (hi : i < out.length) → o.edge i h' = (.ok (((out[i]).tail : Int), ((out[i]).head : Int), (out[i]).cost), h')) ∧
      ∀ i : Int, i < 0 ∨ (N : Int) ≤ i → o.edge i h' = (.error .assertion, h') := by
  obtain ⟨F, out, h1, h2, h3⟩ := C62_solves fl H N g M hg hM hC hsz
  have hN : 0 < N := by
    obtain ⟨a, ha, _⟩ := hC
    have := hg a ha
    omega
  have hm : 0 < g.length := by
    obtain ⟨a, ha, _⟩ := hC
    exact List.length_pos_of_mem ha
  refine ⟨F, fun fuel hF => ?_⟩
  have hs := h1 fuel hF
  obtain ⟨x, hp⟩ : ∃ x, CsaMem.parse (2 * N) g.length (CsaMem.graphBlk g) = .ok x := by
    rcases hp : CsaMem.parse (2 * N) g.length (CsaMem.graphBlk g) with e | x
    · simp [CsaMem.solve, hp, bind, Except.bind] at hs
    · exact ⟨x, rfl⟩
  have e1 : ((2 * N : Int)).toNat = 2 * N := by omega
  have e2 : ((g.length : Int)).toNat = g.length := by omega
  have hcs := construct_all (fl := fl) (fuel := fuel) (dbg := dbg) (fails := fun _ => false) (n := 2 * N) (m := g.length) (h := h)
    (.inr ⟨by omega, by omega, by omega⟩) (fun _ _ => rfl) (by rw [e1, e2]; exact hp) (by rw [e1, e2]; exact hs)
  have hlen : out.length = N := by simpa using h2.2.1.length_eq
  refine ⟨_, _, out, hcs, h2, h3, by simp [Obj.count, objAt, hlen], ?_, ?_, ?_⟩
  · have : ∀ (l : List InArc) (z : Int), (l.map CsaMem.triple).foldl (fun s e => s + e.2.2) z = z + totalCost l := by
      intro l
      induction l with
      | nil => intro z; simp [totalCost]
      | cons a l ih =>
        intro z
        rw [List.map_cons, List.foldl_cons, ih]
        simp [totalCost, CsaMem.triple]
        ring
    simp only [Obj.cost, objAt]
    rw [this, zero_add]
  · intro i hi
    have : ¬ ((i : Int) < 0 ∨ ((objAt h.next (out.map CsaMem.triple)).count : Int) ≤ i) := by
      simp [Obj.count, objAt]
      omega
    rw [Obj.edge, if_neg this]
    simp [objAt, hi, CsaMem.triple, pure_def]
  · intro i hi
    have : i < 0 ∨ ((objAt h.next (out.map CsaMem.triple)).count : Int) ≤ i := by
      simp [Obj.count, objAt]
      omega
    rw [Obj.edge, if_pos this]
    rfl

/-- C77, finding: `CSA` has no copy constructor of its own. Copying an object and letting both copies go frees the same block
twice, for every object. -/
theorem C77_copy_double_free (fl : ℚ → ℚ) (fuel : Nat) (dbg : Bool) (fails : Nat → Bool) (n m : Int) (g : Option (CsaMem.Blk Int))
    (v w : Nat) (hvw : v ≠ w) (h h1 : CsaLife.Heap) (o : Obj) (hf : FreshHeap h)
    (hr : construct fl fuel dbg fails n m g h = (.ok o, h1)) :
    (CsaLife.run fl fuel dbg fails (fun _ => none) [.make v n m g, .copy w v, .drop v, .drop w] h).1 = .error .badFree := by
  obtain ⟨ho, rfl, h10, -⟩ := construct_ok hr
  obtain ⟨-, -, -, -, hd⟩ := C77_object fl fuel dbg fails n m g h _ o hf hr
  have s1 : step fl fuel dbg fails (fun _ => none) (.make v n m g) h =
      (.ok (setVar (fun _ => none) v (some o)), ⟨liveAt h.live h.next, h.next + 10, h.tries + 10⟩) := by
    simp only [step, if_true]
    rw [bind_ok hr, pure_def]
  rw [CsaLife.run, bind_ok s1, CsaLife.run]
  rw [show step fl fuel dbg fails (setVar (fun _ => none) v (some o)) (.copy w v) =
    pure (setVar (setVar (fun _ => none) v (some o)) w (some o)) by simp [step, setVar, hvw.symm]]
  rw [bind_ok (pure_def _ _), CsaLife.run]
  have s3 : step fl fuel dbg fails (setVar (setVar (fun _ => none) v (some o)) w (some o)) (.drop v)
      ⟨liveAt h.live h.next, h.next + 10, h.tries + 10⟩ =
      (.ok (setVar (setVar (setVar (fun _ => none) v (some o)) w (some o)) v none), ⟨h.live, h.next + 10, h.tries + 10⟩) := by
    simp only [step]
    rw [show setVar (setVar (fun _ => none) v (some o)) w (some o) v = some o by simp [setVar]]
    dsimp only
    rw [bind_ok hd, pure_def]
  rw [bind_ok s3, CsaLife.run]
  have s4 : step fl fuel dbg fails (setVar (setVar (setVar (fun _ => none) v (some o)) w (some o)) v none) (.drop w)
      ⟨h.live, h.next + 10, h.tries + 10⟩ = (.error .badFree, ⟨h.live, h.next + 10, h.tries + 10⟩) := by
    simp only [step]
    rw [show setVar (setVar (setVar (fun _ => none) v (some o)) w (some o)) v none w = some o by simp [setVar, hvw.symm]]
    dsimp only
    apply bind_err
    rw [ho]
    unfold destroy objAt
    dsimp only [deleteArr]
    apply bind_err
    simp [release, hf (h.next + 7) (by omega)]
  rw [bind_err s4]

/-- An empty heap, and a program with two objects that live at the same time and die in the order of their birth: it runs to
the end, and nothing stays allocated. -/
example : FreshHeap ⟨fun _ => none, 0, 0⟩ ∧
    NoCopies [.make 0 4 4 (some (CsaMem.graphBlk [⟨1, 3, 5⟩, ⟨1, 4, 1⟩, ⟨2, 3, 1⟩, ⟨2, 4, 1⟩])),
      .make 1 2 1 (some (CsaMem.graphBlk [⟨1, 2, 3⟩])), .drop 0, .drop 1] ∧
    (match CsaLife.run id 40 true (fun _ => false) (fun _ => none)
      [.make 0 4 4 (some (CsaMem.graphBlk [⟨1, 3, 5⟩, ⟨1, 4, 1⟩, ⟨2, 3, 1⟩, ⟨2, 4, 1⟩])),
        .make 1 2 1 (some (CsaMem.graphBlk [⟨1, 2, 3⟩])), .drop 0, .drop 1] ⟨fun _ => none, 0, 0⟩ with
      | (.ok s, h) => (s 0, s 1, h.next, (List.range 20).map h.live)
      | _ => (none, none, 0, [])) = (none, none, 20, List.replicate 20 none) := by
  refine ⟨fun _ _ => rfl, ?_, by decide +kernel⟩
  intro c hc
  simp only [List.mem_cons, List.not_mem_nil, or_false] at hc
  rcases hc with rfl | rfl | rfl | rfl
  · exact .inl ⟨_, _, _, _, rfl⟩
  · exact .inl ⟨_, _, _, _, rfl⟩
  · exact .inr ⟨_, rfl⟩
  · exact .inr ⟨_, rfl⟩

/-- The constructor on a concrete graph: the object, and what happens when the third or the eighth request fails. -/
example :
    (construct id 40 true (fun _ => false) 4 4 (some (CsaMem.graphBlk [⟨1, 3, 5⟩, ⟨1, 4, 1⟩, ⟨2, 3, 1⟩, ⟨2, 4, 1⟩])) ⟨fun _ => none, 0, 0⟩).1 =
      .ok ⟨some 0, some 1, some 2, some 5, some 6, some 7, some 8, some 9, [(1, 4, 1), (2, 3, 1)]⟩ ∧
    (construct id 40 true (fun i => i = 2) 4 4 (some (CsaMem.graphBlk [⟨1, 3, 5⟩, ⟨1, 4, 1⟩, ⟨2, 3, 1⟩, ⟨2, 4, 1⟩])) ⟨fun _ => none, 0, 0⟩).1 =
      .error (.memory .nullPointer) ∧
    (construct id 40 true (fun i => i = 7) 4 4 (some (CsaMem.graphBlk [⟨1, 3, 5⟩, ⟨1, 4, 1⟩, ⟨2, 3, 1⟩, ⟨2, 4, 1⟩])) ⟨fun _ => none, 0, 0⟩).1 =
      .error .badAlloc := by
  refine ⟨by decide +kernel, by decide +kernel, by decide +kernel⟩

end EdgeEval.Props
