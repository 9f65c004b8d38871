import Verif.Model.CsaLife

/-! # Lemmas for the life of a `CSA` object -/

namespace EdgeEval.CsaLife

open EdgeEval

theorem bind_def {α β : Type} (x : Op α) (f : α → Op β) (h : Heap) :
    (x >>= f) h = match x h with
      | (.ok a, h') => f a h'
      | (.error e, h') => (.error e, h') := rfl

theorem pure_def {α : Type} (a : α) (h : Heap) : (pure a : Op α) h = (.ok a, h) := rfl

theorem bind_ok {α β : Type} {x : Op α} {f : α → Op β} {h h' : Heap} {a : α} (hx : x h = (.ok a, h')) :
    (x >>= f) h = f a h' := by rw [bind_def, hx]

theorem bind_err {α β : Type} {x : Op α} {f : α → Op β} {h h' : Heap} {e : Stop} (hx : x h = (.error e, h')) :
    (x >>= f) h = (.error e, h') := by rw [bind_def, hx]

theorem bind_eq_ok {α β : Type} {x : Op α} {f : α → Op β} {h h' : Heap} {b : β} :
    (x >>= f) h = (.ok b, h') ↔ ∃ a h1, x h = (.ok a, h1) ∧ f a h1 = (.ok b, h') := by
  rw [bind_def]
  rcases hx : x h with ⟨_ | a, h1⟩
  · simp
  · simp

theorem bind_fst_ne {α β : Type} {x : Op α} {f : α → Op β} {h : Heap} {e : Stop} (hx : (x h).1 ≠ .error e)
    (hf : ∀ a h1, x h = (.ok a, h1) → (f a h1).1 ≠ .error e) : ((x >>= f) h).1 ≠ .error e := by
  rw [bind_def]
  rcases hx' : x h with ⟨e' | a, h1⟩
  · rw [hx'] at hx
    exact fun hh => hx (by simpa using hh)
  · exact hf a h1 hx'

theorem upd_self (f : Nat → Option Kind) (p : Nat) (x : Option Kind) : upd f p x p = x := by simp [upd]

theorem upd_ne (f : Nat → Option Kind) (x : Option Kind) {p q : Nat} (h : q ≠ p) : upd f p x q = f q := by simp [upd, h]

theorem malloc_ok (fails : Nat → Bool) (h : Heap) (hf : fails h.tries = false) :
    malloc fails h = (.ok (some h.next), ⟨upd h.live h.next (some .malloc), h.next + 1, h.tries + 1⟩) := by
  simp [malloc, hf]

theorem malloc_fail (fails : Nat → Bool) (h : Heap) (hf : fails h.tries = true) :
    malloc fails h = (.ok none, { h with tries := h.tries + 1 }) := by simp [malloc, hf]

theorem newArr_ok (fails : Nat → Bool) (h : Heap) (hf : fails h.tries = false) :
    newArr fails h = (.ok (some h.next), ⟨upd h.live h.next (some .newArr), h.next + 1, h.tries + 1⟩) := by
  simp [newArr, hf]

theorem newArr_fail (fails : Nat → Bool) (h : Heap) (hf : fails h.tries = true) :
    newArr fails h = (.error .badAlloc, { h with tries := h.tries + 1 }) := by simp [newArr, hf]

theorem release_ok {k : Kind} {p : Nat} {h : Heap} (hp : h.live p = some k) :
    release k p h = (.ok (), { h with live := upd h.live p none }) := by simp [release, hp]

/-- The blocks of an object constructed when `b` was the next address. -/
def objAt (b : Nat) (edges : List (Int × Int × Int)) : Obj :=
  ⟨some b, some (b + 1), some (b + 2), some (b + 5), some (b + 6), some (b + 7), some (b + 8), some (b + 9), edges⟩

/-- The allocated blocks after the construction. -/
def liveAt (live : Nat → Option Kind) (b : Nat) : Nat → Option Kind := fun p =>
  if p = b ∨ p = b + 1 ∨ p = b + 2 ∨ p = b + 5 ∨ p = b + 6 then some .malloc
  else if p = b + 7 ∨ p = b + 8 ∨ p = b + 9 then some .newArr
  else if p = b + 3 ∨ p = b + 4 then none
  else live p

theorem parse_all {fails : Nat → Bool} {n m : Nat} {g : CsaMem.Blk Int} {h : Heap} {x : CsaMem.Heap × Nat}
    (hf : ∀ i, i < 5 → fails (h.tries + i) = false) (hp : CsaMem.parse n m g = .ok x) :
    parse fails n m g h = (.ok (some h.next, some (h.next + 1), some (h.next + 2)),
      ⟨fun p => if p = h.next ∨ p = h.next + 1 ∨ p = h.next + 2 then some .malloc
        else if p = h.next + 3 ∨ p = h.next + 4 then none else h.live p, h.next + 5, h.tries + 5⟩) := by
  have f0 := hf 0 (by omega)
  have f1 := hf 1 (by omega)
  have f2 := hf 2 (by omega)
  have f3 := hf 3 (by omega)
  have f4 := hf 4 (by omega)
  simp only [Nat.add_zero] at f0
  unfold parse
  rw [bind_ok (malloc_ok fails h f0), bind_ok (malloc_ok fails _ (by simpa using f1)),
    bind_ok (malloc_ok fails _ (by simpa using f2)), bind_ok (malloc_ok fails _ (by simpa using f3)),
    bind_ok (malloc_ok fails _ (by simpa using f4))]
  simp only [reduceCtorEq, or_self, if_false, hp, Nat.add_assoc, Nat.reduceAdd]
  rw [show free (some (h.next + 4)) = release .malloc (h.next + 4) from rfl,
    show free (some (h.next + 3)) = release .malloc (h.next + 3) from rfl,
    bind_ok (release_ok (by simp [upd])), bind_ok (release_ok (by simp [upd])), pure_def]
  congr 2
  funext p
  simp only [upd]
  split_ifs <;> first | rfl | omega

/-- The message of a failed request inside `parse`. -/
def nomemExit : Stop := .exit 1 ["CSA: Error while parsing the input: ", "Can't obtain enough memory to solve this problem.", " \n"]

/-- The message of a bad arc. -/
def badArcExit : Stop := .exit 1 ["CSA: Error while parsing the input: ", "Error reading an arc descriptor from the input.", " \n"]

theorem parseError_nomem {α : Type} (h : Heap) : (parseError NOMEM : Op α) h = (.error nomemExit, h) := rfl

theorem parseError_bad {α : Type} (h : Heap) : (parseError BADINPUT4 : Op α) h = (.error badArcExit, h) := rfl

/-- What `parse` does, for every schedule of failures. -/
theorem parse_fst (fails : Nat → Bool) (n m : Nat) (g : CsaMem.Blk Int) (h : Heap) :
    (parse fails n m g h).1 =
      if fails h.tries ∨ fails (h.tries + 1) ∨ fails (h.tries + 3) ∨ fails (h.tries + 4) then .error nomemExit
      else match CsaMem.parse n m g with
        | .error .parseError => .error badArcExit
        | .error e => .error (.memory e)
        | .ok _ => if fails (h.tries + 2) then .error (.memory .nullPointer)
          else .ok (some h.next, some (h.next + 1), some (h.next + 2)) := by
  by_cases hall : ∀ i, i < 5 → fails (h.tries + i) = false
  · have f0 := hall 0 (by omega)
    have f1 := hall 1 (by omega)
    have f2 := hall 2 (by omega)
    have f3 := hall 3 (by omega)
    have f4 := hall 4 (by omega)
    simp only [Nat.add_zero] at f0
    rcases hp : CsaMem.parse n m g with e | x
    · unfold parse
      simp only [bind_def, malloc]
      cases e <;> simp [f0, f1, f2, f3, f4, hp, stop, parseError_bad]
    · rw [parse_all hall hp]
      simp [f0, f1, f2, f3, f4]
  · unfold parse
    simp only [bind_def, malloc]
    by_cases f0 : fails h.tries = true <;> by_cases f1 : fails (h.tries + 1) = true <;>
      by_cases f2 : fails (h.tries + 2) = true <;> by_cases f3 : fails (h.tries + 3) = true <;>
      by_cases f4 : fails (h.tries + 4) = true <;> simp [f0, f1, f2, f3, f4, parseError_nomem]
    · rcases hp : CsaMem.parse n m g with e | x
      · cases e <;> simp [stop, parseError_bad]
      · simp [stop]
    · exfalso
      refine hall fun i hi => ?_
      have : i = 0 ∨ i = 1 ∨ i = 2 ∨ i = 3 ∨ i = 4 := by omega
      rcases this with rfl | rfl | rfl | rfl | rfl <;> simp_all

theorem parse_ok {fails : Nat → Bool} {n m : Nat} {g : CsaMem.Blk Int} {h h' : Heap} {y : Option Nat × Option Nat × Option Nat}
    (hr : parse fails n m g h = (.ok y, h')) :
    (∀ i, i < 5 → fails (h.tries + i) = false) ∧ ∃ x, CsaMem.parse n m g = .ok x := by
  have h1 := parse_fst fails n m g h
  rw [hr] at h1
  dsimp only at h1
  by_cases hn : fails h.tries ∨ fails (h.tries + 1) ∨ fails (h.tries + 3) ∨ fails (h.tries + 4)
  · simp [hn] at h1
  rw [if_neg hn] at h1
  rcases hp : CsaMem.parse n m g with e | x
  · cases e <;> simp [hp] at h1
  · refine ⟨?_, x, rfl⟩
    simp only [hp] at h1
    have h2 : fails (h.tries + 2) = false := by
      by_contra hc
      rw [Bool.not_eq_false] at hc
      simp [hc] at h1
    intro i hi
    have : i = 0 ∨ i = 1 ∨ i = 2 ∨ i = 3 ∨ i = 4 := by omega
    rcases this with rfl | rfl | rfl | rfl | rfl <;> simp_all

theorem stCreate_all {fails : Nat → Bool} {h : Heap} (f0 : fails h.tries = false) (f1 : fails (h.tries + 1) = false) :
    stCreate fails h = (.ok (some h.next, some (h.next + 1)),
      ⟨fun p => if p = h.next ∨ p = h.next + 1 then some .malloc else h.live p, h.next + 2, h.tries + 2⟩) := by
  unfold stCreate
  rw [bind_ok (malloc_ok fails h f0)]
  simp only [reduceCtorEq, if_false]
  rw [bind_ok (malloc_ok fails _ (by simpa using f1))]
  simp only [reduceCtorEq, if_false, pure_def, Nat.add_assoc, Nat.reduceAdd]
  congr 2
  funext p
  simp only [upd]
  split_ifs <;> first | rfl | omega

theorem stCreate_fst (fails : Nat → Bool) (h : Heap) :
    (stCreate fails h).1 = if fails h.tries ∨ fails (h.tries + 1) then .error (.exit 9 [nomemMsg])
      else .ok (some h.next, some (h.next + 1)) := by
  by_cases f0 : fails h.tries = true <;> by_cases f1 : fails (h.tries + 1) = true <;>
    simp [stCreate, bind_def, malloc, f0, f1, stop, pure_def]

/-- The constructor, when no request fails. -/
theorem construct_all {fl : ℚ → ℚ} {fuel : Nat} {dbg : Bool} {fails : Nat → Bool} {n m : Int} {g : CsaMem.Blk Int} {h : Heap}
    {x : CsaMem.Heap × Nat} {edges : List (Int × Int × Int)}
    (harg : dbg = false ∨ (0 < n ∧ 0 < m ∧ n % 2 = 0)) (hf : ∀ i, i < 10 → fails (h.tries + i) = false)
    (hp : CsaMem.parse n.toNat m.toNat g = .ok x) (hs : CsaMem.solve fl fuel n.toNat m.toNat g = .ok edges) :
    construct fl fuel dbg fails n m (some g) h = (.ok (objAt h.next edges), ⟨liveAt h.live h.next, h.next + 10, h.tries + 10⟩) := by
  have f5 := hf 5 (by omega)
  have f6 := hf 6 (by omega)
  have f7 := hf 7 (by omega)
  have f8 := hf 8 (by omega)
  have f9 := hf 9 (by omega)
  unfold construct
  rw [if_neg (by rcases harg with rfl | ha <;> simp_all)]
  dsimp only
  rw [bind_ok (parse_all (fun i hi => hf i (by omega)) hp), bind_ok (stCreate_all (by simpa using f5) (by simpa using f6)), hs]
  dsimp only
  rw [bind_ok (newArr_ok _ _ (by simpa using f7)), bind_ok (newArr_ok _ _ (by simpa using f8)),
    bind_ok (newArr_ok _ _ (by simpa using f9)), pure_def]
  simp only [Nat.add_assoc, Nat.reduceAdd, objAt]
  congr 2
  funext p
  simp only [upd, liveAt]
  split_ifs <;> first | rfl | omega

/-- When the constructor returns, no request has failed. -/
theorem construct_ok {fl : ℚ → ℚ} {fuel : Nat} {dbg : Bool} {fails : Nat → Bool} {n m : Int} {g : Option (CsaMem.Blk Int)}
    {h h' : Heap} {o : Obj} (hr : construct fl fuel dbg fails n m g h = (.ok o, h')) :
    o = objAt h.next o.edges ∧ h' = ⟨liveAt h.live h.next, h.next + 10, h.tries + 10⟩ ∧
      (∀ i, i < 10 → fails (h.tries + i) = false) ∧
      ∃ g', g = some g' ∧ CsaMem.solve fl fuel n.toNat m.toNat g' = .ok o.edges := by
  have hr0 := hr
  unfold construct at hr
  split_ifs at hr with harg
  · simp [stop] at hr
  rcases g with _ | g
  · simp [stop] at hr
  dsimp only at hr
  rw [bind_eq_ok] at hr
  obtain ⟨x, h1, hx, hr⟩ := hr
  obtain ⟨hf, x', hp⟩ := parse_ok hx
  rw [parse_all hf hp] at hx
  obtain ⟨rfl, rfl⟩ := Prod.mk.inj hx |>.imp (fun h => Except.ok.inj h) id
  rw [bind_eq_ok] at hr
  obtain ⟨y, h2, hy, hr⟩ := hr
  have hs1 := stCreate_fst fails ⟨fun p => if p = h.next ∨ p = h.next + 1 ∨ p = h.next + 2 then some .malloc
        else if p = h.next + 3 ∨ p = h.next + 4 then none else h.live p, h.next + 5, h.tries + 5⟩
  rw [hy] at hs1
  dsimp only at hs1
  split_ifs at hs1 with hf2
  simp only [not_or, Bool.not_eq_true, Nat.add_assoc, Nat.reduceAdd] at hf2
  rw [stCreate_all (by simpa using hf2.1) (by simpa using hf2.2)] at hy
  obtain ⟨rfl, rfl⟩ := Prod.mk.inj hy |>.imp (fun h => Except.ok.inj h) id
  rcases hs : CsaMem.solve fl fuel n.toNat m.toNat g with e | edges
  · simp [hs, stop] at hr
  simp only [hs] at hr
  rw [bind_eq_ok] at hr
  obtain ⟨a, h3, ha, hr⟩ := hr
  have f7 : fails (h.tries + 7) = false := by
    by_contra hc
    rw [Bool.not_eq_false] at hc
    rw [newArr_fail _ _ (by simpa using hc)] at ha
    simp at ha
  rw [newArr_ok _ _ (by simpa using f7)] at ha
  obtain ⟨rfl, rfl⟩ := Prod.mk.inj ha |>.imp (fun h => Except.ok.inj h) id
  rw [bind_eq_ok] at hr
  obtain ⟨b, h4, hb, hr⟩ := hr
  have f8 : fails (h.tries + 8) = false := by
    by_contra hc
    rw [Bool.not_eq_false] at hc
    rw [newArr_fail _ _ (by simpa using hc)] at hb
    simp at hb
  rw [newArr_ok _ _ (by simpa using f8)] at hb
  obtain ⟨rfl, rfl⟩ := Prod.mk.inj hb |>.imp (fun h => Except.ok.inj h) id
  rw [bind_eq_ok] at hr
  obtain ⟨c, h5, hc, hr⟩ := hr
  have f9 : fails (h.tries + 9) = false := by
    by_contra hc'
    rw [Bool.not_eq_false] at hc'
    rw [newArr_fail _ _ (by simpa using hc')] at hc
    simp at hc
  have hall : ∀ i, i < 10 → fails (h.tries + i) = false := by
    intro i hi
    rcases Nat.lt_or_ge i 5 with h5 | h5
    · exact hf i h5
    have : i = 5 ∨ i = 6 ∨ i = 7 ∨ i = 8 ∨ i = 9 := by omega
    rcases this with rfl | rfl | rfl | rfl | rfl
    exacts [hf2.1, hf2.2, f7, f8, f9]
  have harg' : dbg = false ∨ (0 < n ∧ 0 < m ∧ n % 2 = 0) := by
    rcases dbg with _ | _
    · exact .inl rfl
    · right
      simp only [true_and, not_not] at harg
      exact ⟨harg.1, harg.2.1, harg.2.2.2⟩
  rw [construct_all harg' hall hp hs] at hr0
  obtain ⟨h6, h7⟩ := Prod.mk.inj hr0
  have h6 := Except.ok.inj h6
  subst h6
  exact ⟨rfl, h7.symm, hall, g, rfl, hs⟩

theorem parse_no_badFree (fails : Nat → Bool) (n m : Nat) (g : CsaMem.Blk Int) (h : Heap) :
    (parse fails n m g h).1 ≠ .error .badFree := by
  rw [parse_fst]
  split_ifs
  · simp [nomemExit]
  · rcases CsaMem.parse n m g with e | x
    · cases e <;> simp [badArcExit]
    · simp
  · rcases CsaMem.parse n m g with e | x
    · cases e <;> simp [badArcExit]
    · simp

theorem newArr_no_badFree (fails : Nat → Bool) (h : Heap) : (newArr fails h).1 ≠ .error .badFree := by
  unfold newArr
  split_ifs <;> simp

theorem construct_no_badFree (fl : ℚ → ℚ) (fuel : Nat) (dbg : Bool) (fails : Nat → Bool) (n m : Int)
    (g : Option (CsaMem.Blk Int)) (h : Heap) : (construct fl fuel dbg fails n m g h).1 ≠ .error .badFree := by
  unfold construct
  split_ifs
  · simp [stop]
  rcases g with _ | g
  · simp [stop]
  dsimp only
  refine bind_fst_ne (parse_no_badFree _ _ _ _ _) fun x h1 _ => bind_fst_ne ?_ fun y h2 _ => ?_
  · rw [stCreate_fst]
    split_ifs <;> simp
  rcases CsaMem.solve fl fuel n.toNat m.toNat g with e | edges
  · simp [stop]
  dsimp only
  exact bind_fst_ne (newArr_no_badFree _ _) fun a h3 _ => bind_fst_ne (newArr_no_badFree _ _) fun b h4 _ =>
    bind_fst_ne (newArr_no_badFree _ _) fun c h5 _ => by simp [pure_def]

/-- The destructor, when the blocks of the object are allocated as they were constructed. -/
theorem destroy_all {b : Nat} {edges : List (Int × Int × Int)} {h : Heap}
    (hm : ∀ i, i = 0 ∨ i = 1 ∨ i = 2 ∨ i = 5 ∨ i = 6 → h.live (b + i) = some .malloc)
    (hn : ∀ i, i = 7 ∨ i = 8 ∨ i = 9 → h.live (b + i) = some .newArr) :
    destroy (objAt b edges) h = (.ok (), { h with live := fun p =>
      if p = b ∨ p = b + 1 ∨ p = b + 2 ∨ p = b + 5 ∨ p = b + 6 ∨ p = b + 7 ∨ p = b + 8 ∨ p = b + 9 then none else h.live p }) := by
  have m0 := hm 0 (by simp)
  have m1 := hm 1 (by simp)
  have m2 := hm 2 (by simp)
  have m5 := hm 5 (by simp)
  have m6 := hm 6 (by simp)
  have n7 := hn 7 (by simp)
  have n8 := hn 8 (by simp)
  have n9 := hn 9 (by simp)
  simp only [Nat.add_zero] at m0
  unfold destroy objAt
  dsimp only [deleteArr, free]
  rw [bind_ok (release_ok n7), bind_ok (release_ok (by simpa [upd] using n8)), bind_ok (release_ok (by simpa [upd] using n9)),
    bind_ok (release_ok (by simpa [upd] using m0)), bind_ok (release_ok (by simpa [upd] using m1)),
    bind_ok (release_ok (by simpa [upd] using m2))]
  simp only [stDestroy, reduceCtorEq, if_false, free]
  rw [bind_ok (release_ok (by simpa [upd] using m6)), release_ok (by simpa [upd] using m5)]
  congr 2
  funext p
  simp only [upd]
  split_ifs <;> first | rfl | omega

end EdgeEval.CsaLife
