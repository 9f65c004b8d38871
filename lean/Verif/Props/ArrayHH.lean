import Verif.Lemmas.ArrayMem

/-!
# C72, C73: the array classes of Array.hh
-/

namespace EdgeEval.Props

open EdgeEval EdgeEval.ArrayHH EdgeEval.Spec.ArrayHH
open EdgeEval.MatrixMem (Fault)
open EdgeEval.CsaMem (Blk)

/-! ## C72: the address calculation -/

/-- In-range indices of an array with fewer than 2³² elements are `unsigned` values. -/
theorem inRange_u32 {dims idx : List Nat} (hs : dims.prod < 2 ^ 32) (h : InRange idx dims) : areU32 idx = true := by
  have key : ∀ (dims idx : List Nat), InRange idx dims → ∀ i ∈ idx, i < dims.prod := by
    intro dims
    induction dims with
    | nil =>
      intro idx h i hi
      cases idx with
      | nil => simp at hi
      | cons => exact absurd h not_inRange_cons_nil
    | cons d ds ih =>
      intro idx h i hi
      cases idx with
      | nil => simp at hi
      | cons j js =>
        obtain ⟨h1, h2⟩ := inRange_cons.1 h
        have hp : 0 < ds.prod := Nat.lt_of_le_of_lt (Nat.zero_le _) (rank_lt h2)
        rw [List.prod_cons]
        rcases List.mem_cons.1 hi with rfl | hi
        · exact Nat.lt_of_lt_of_le h1 (Nat.le_mul_of_pos_right _ hp)
        · exact Nat.lt_of_lt_of_le (ih js h2 i hi) (Nat.le_mul_of_pos_left _ (by omega))
  unfold areU32
  rw [List.all_eq_true]
  intro i hi
  exact decide_eq_true (Nat.lt_trans (key dims idx h i hi) hs)

/-- C72: in an array with fewer than 2³² elements, of any number of dimensions, the 32-bit index expression of every in-range tuple
is exact (`i * d1 * d2 + j * d2 + k`, no wrap-around), inside the block, and orders the tuples with the last index changing fastest. -/
theorem C72_row_major (dims idx : List Nat) (hs : dims.prod < 2 ^ 32) (h : InRange idx dims) :
    index32 dims idx = rank dims idx ∧ index32 dims idx < prod32 dims ∧ prod32 dims = dims.prod ∧
    ∀ idx', InRange idx' dims → (index32 dims idx < index32 dims idx' ↔ List.Lex (· < ·) idx idx') := by
  have key : ∀ j, InRange j dims → index32 dims j = rank dims j := fun j hj => by
    rw [index32_eq _ _ hj.1 (inRange_u32 hs hj), Nat.mod_eq_of_lt (Nat.lt_trans (rank_lt hj) hs)]
  have hp : prod32 dims = dims.prod := by rw [prod32_eq, Nat.mod_eq_of_lt hs]
  refine ⟨key _ h, ?_, hp, fun idx' h' => ?_⟩
  · rw [key _ h, hp]; exact rank_lt h
  · rw [key _ h, key _ h', rank_lex h h']

example : index32 [2, 3, 4] [1, 2, 3] = 23 ∧ InRange [1, 2, 3] [2, 3, 4] := by decide

/-- C72: different elements never share an address and every element of the block is reached: the tuples and the positions
correspond one to one. -/
theorem C72_one_to_one (dims : List Nat) (hs : dims.prod < 2 ^ 32) :
    (∀ idx idx', InRange idx dims → InRange idx' dims → index32 dims idx = index32 dims idx' → idx = idx') ∧
    ∀ k < dims.prod, ∃ idx, InRange idx dims ∧ index32 dims idx = k := by
  constructor
  · intro idx idx' h h' e
    rw [(C72_row_major dims idx hs h).1, (C72_row_major dims idx' hs h').1] at e
    exact rank_inj h h' e
  · intro k hk
    obtain ⟨h1, h2⟩ := unrank_spec dims k hk
    exact ⟨_, h1, by rw [(C72_row_major dims _ hs h1).1, h2]⟩

example : ∃ idx, InRange idx [321, 481] ∧ index32 [321, 481] idx = 100000 :=
  (C72_one_to_one [321, 481] (by decide)).2 _ (by decide)

/-- C72: the four index expressions written out, for in-range indices. -/
theorem C72_formulas (d0 d1 d2 d3 i j k m : Nat) (h : d0 * d1 * d2 * d3 < 2 ^ 32) (hi : i < d0) (hj : j < d1) (hk : k < d2) (hm : m < d3) :
    index32 [d0, d1, d2, d3] [i, j, k, m] = ((i * d1 + j) * d2 + k) * d3 + m ∧
    index32 [d0, d1, d2] [i, j, k] = (i * d1 + j) * d2 + k ∧ index32 [d0, d1] [i, j] = i * d1 + j ∧ index32 [d0] [i] = i := by
  have h3 : 0 < d3 := by omega
  have h2 : 0 < d2 := by omega
  have h1 : 0 < d1 := by omega
  have l3 : d0 * d1 * d2 < 2 ^ 32 := Nat.lt_of_le_of_lt (Nat.le_mul_of_pos_right _ h3) h
  have l2 : d0 * d1 < 2 ^ 32 := Nat.lt_of_le_of_lt (Nat.le_mul_of_pos_right _ h2) l3
  have l1 : d0 < 2 ^ 32 := Nat.lt_of_le_of_lt (Nat.le_mul_of_pos_right _ h1) l2
  refine ⟨?_, ?_, ?_, ?_⟩
  · rw [(C72_row_major [d0, d1, d2, d3] [i, j, k, m] (by simpa [Nat.mul_assoc] using h) (by simp [InRange, *])).1]
    simp only [rank, List.prod_cons, List.prod_nil]; ring
  · rw [(C72_row_major [d0, d1, d2] [i, j, k] (by simpa [Nat.mul_assoc] using l3) (by simp [InRange, *])).1]
    simp only [rank, List.prod_cons, List.prod_nil]; ring
  · rw [(C72_row_major [d0, d1] [i, j] (by simpa using l2) (by simp [InRange, *])).1]
    simp only [rank, List.prod_cons, List.prod_nil]; ring
  · rw [(C72_row_major [d0] [i] (by simpa using l1) (by simp [InRange, *])).1]
    simp only [rank, List.prod_nil]; ring

example : index32 [3, 5] [2, 4] = 14 := by
  have := (C72_formulas 3 5 1 1 2 4 0 0 (by norm_num) (by norm_num) (by norm_num) (by norm_num) (by norm_num)).2.2.1
  norm_num at this; exact this

/-- C72 (finding): with 2³² elements or more the classes do not notice: `Array2D (65537, 65536)` has only 65536 elements, and its
elements (0, 0) and (65536, 0) are the same; `Array2D (65536, 65536)` has none. -/
theorem C72_overflow :
    prod32 [65537, 65536] = 65536 ∧ index32 [65537, 65536] [65536, 0] = index32 [65537, 65536] [0, 0] ∧ prod32 [65536, 65536] = 0 := by
  decide +kernel

/-! ## C73: programs using arrays -/

/-- C73: whatever a program does with arrays of fewer than 2³² elements (make, resize, fill, read and write elements or read them
through `data()`, ask for sizes, destroy, in any order and depending on what it reads), it gets what it would get from arrays that
are values indexed by tuples, and the memory holds exactly these arrays, each in a block of its own, and nothing else. A program that makes no
mistake behaves the same without `assert`. -/
theorem C73_values {α β : Type} (dflt : Option α) (P : Prog α β) (hP : FewElements P) (s : St α) (C : Clean s) :
    match eval dflt P (fun _ => none) with
    | .ok (b, e) => ∀ dbg, ∃ s', run dbg dflt P s = .ok (b, s') ∧ Holds s s' e
    | .error f => run true dflt P s = .error f := by
  have R : RelT (fun _ => none : Env α) (fun _ => none) := fun _ => .inl ⟨rfl, rfl⟩
  cases he : eval dflt P (fun _ => none) with
  | error f =>
    have h := evalF_eval true dflt P hP _ _ R
    rw [he] at h
    have h2 := run_flat true dflt P s s _ (relF_clean C)
    rw [h rfl] at h2
    exact h2
  | ok be =>
    obtain ⟨b, e⟩ := be
    intro dbg
    have h := evalF_eval dbg dflt P hP _ _ R
    rw [he] at h
    obtain ⟨g, h1, T⟩ := h
    have h2 := run_flat dbg dflt P s s _ (relF_clean C)
    rw [h1] at h2
    obtain ⟨s', h3, F⟩ := h2
    refine ⟨s', h3, fun v => ?_, fun v A hA => ?_, F.apart, F.rest⟩
    · rw [F.live v]
      rcases T v with ⟨t1, t2⟩ | ⟨A, B, t1, t2, -⟩
      · rw [t1, t2]; simp
      · rw [t1, t2]; simp
    · rcases T v with ⟨t1, -⟩ | ⟨A', B, t1, t2, r⟩
      · rw [t1] at hA; cases hA
      · rw [t1] at hA; cases hA
        obtain ⟨o, b', g1, g2, g3, g4, g5, g6, g7, g8⟩ := F.stored v B t2
        refine ⟨o, b', g1, g2.trans r.dims, g4, g6, g7.trans r.prod, fun idx hi => ?_⟩
        rw [g8 _ (by rw [r.prod]; exact rank_lt hi), r.cell _ hi]

/-- A program: a 2×3 array, filled with 7, one element changed, read back by index and through the pointer, resized. -/
def demoArray : Prog ℕ (ℕ × ℕ × ℕ × ℤ) :=
  .ctor 0 [2, 3] <| .init 0 7 <| .put 0 [1, 0] 9 <| .get 0 [1, 0] fun a => .raw 0 3 fun b => .get 0 [1, 2] fun c =>
    .resize 0 [4, 1] <| .size 0 0 fun d => .dtor 0 <| .ret (a, b, c, d)

/-- The memory at the start. -/
def emptyHeap (α : Type) : St α := ⟨0, fun _ => none, fun _ => none⟩

theorem clean_emptyHeap (α : Type) : Clean (emptyHeap α) := ⟨fun _ => rfl, fun _ _ => rfl⟩

theorem small_demoArray : FewElements demoArray := by
  simp [demoArray, FewElements]

example : ∃ s', run false none demoArray (emptyHeap ℕ) = .ok ((9, 9, 7, 4), s') := by
  have h := C73_values none demoArray small_demoArray _ (clean_emptyHeap ℕ)
  have e : ∃ e', eval none demoArray (fun _ => none) = .ok ((9, 9, 7, 4), e') := ⟨_, rfl⟩
  obtain ⟨e', e⟩ := e
  rw [e] at h
  obtain ⟨s', h1, -⟩ := h false
  exact ⟨s', h1⟩

/-- C73: memory safety for all sizes, also beyond 2³² elements: as long as a program does not use `data()`, nothing but a failed
assertion or the use of a value nobody has written can go wrong. -/
theorem C73_memory_safe {α β : Type} (dflt : Option α) (P : Prog α β) (hP : NoRaw P) (s : St α) (C : Clean s) (f : Fault)
    (h : run true dflt P s = .error f) : f = .assertion ∨ f = .uninitialised ∨ f = .notInScope := by
  have h2 := run_flat true dflt P s s _ (relF_clean C)
  cases he : evalF true dflt P (fun _ => none) with
  | error f' =>
    rw [he] at h2
    rw [h] at h2
    cases h2
    exact evalF_safe dflt P hP _ f he
  | ok be =>
    obtain ⟨b, g⟩ := be
    rw [he] at h2
    obtain ⟨s', h3, -⟩ := h2
    rw [h] at h3; cases h3

example : run true none (.ctor 0 [65537, 65536] (.get 0 [65536, 65535] fun x => .ret x) : Prog ℕ ℕ) (emptyHeap ℕ) = .error .uninitialised := rfl

/-- C73: if every array a program makes is destroyed, all memory is given back, whatever the sizes. -/
theorem C73_no_leak {α β : Type} (dbg : Bool) (dflt : Option α) (P : Prog α β) (s s' : St α) (C : Clean s) (b : β)
    (h : run dbg dflt P s = .ok (b, s')) (hv : ∀ v, s'.vars v = none) : s'.heap = s.heap := by
  have h2 := run_flat dbg dflt P s s _ (relF_clean C)
  cases he : evalF dbg dflt P (fun _ => none) with
  | error f' => rw [he] at h2; rw [h] at h2; cases h2
  | ok be =>
    obtain ⟨b', g⟩ := be
    rw [he] at h2
    obtain ⟨s'', h3, F⟩ := h2
    rw [h] at h3; cases h3
    funext p
    rcases F.rest p with ⟨v, o, h1, -⟩ | h
    · rw [hv] at h1; cases h1
    · exact h

example : ∃ s', run true (some 0) (.ctor 0 [2, 2] (.ctor 1 [3] (.dtor 0 (.dtor 1 (.ret ())))) : Prog ℕ Unit) (emptyHeap ℕ) = .ok ((), s') ∧
    (∀ v, s'.vars v = none) ∧ s'.heap = (emptyHeap ℕ).heap := by
  refine ⟨_, rfl, fun v => ?_, ?_⟩
  · simp only [upd, emptyHeap]; split_ifs <;> rfl
  · refine C73_no_leak true (some 0) (.ctor 0 [2, 2] (.ctor 1 [3] (.dtor 0 (.dtor 1 (.ret ())))) : Prog ℕ Unit) _ _ (clean_emptyHeap ℕ) () rfl fun v => ?_
    simp only [upd, emptyHeap]; split_ifs <;> rfl

/-- C73: the assertions: an index at or above its dimension is always caught, and with the assertions no access is outside the block. -/
theorem C73_checked {α : Type} (v : Nat) (idx : List Nat) (s : St α) (o : Obj) (hv : s.vars v = some o)
    (hl : idx.length = o.dims.length) (hu : areU32 idx = true) :
    (¬ InRange idx o.dims → address true v idx s = .error .assertion) ∧
    ∀ p k s', address true v idx s = .ok ((p, k), s') → p = o.ptr ∧ k < o.n ∧ s' = s ∧ InRange idx o.dims := by
  have ha : address true v idx s = if below idx o.dims = false then .error .assertion
      else if ¬ index32 o.dims idx < o.n then .error .assertion else .ok ((o.ptr, index32 o.dims idx), s) := by
    unfold address
    rw [bind_ok (obj_ok hv), if_neg (not_not.2 ⟨hl, hu⟩)]
    simp
  rw [ha]
  constructor
  · intro hn
    rw [if_pos]
    rw [Bool.eq_false_iff]
    exact fun h => hn ((below_iff _ _).1 h)
  · intro p k s' h
    split at h
    · cases h
    · rename_i hb
      split at h
      · cases h
      · rename_i hk
        cases h
        exact ⟨rfl, not_not.1 hk, rfl, (below_iff _ _).1 (by simpa using hb)⟩

example : address true 0 [1, 5] (⟨1, fun _ => none, fun _ => some ⟨6, 0, [2, 3]⟩⟩ : St ℕ) = .error .assertion :=
  (C73_checked 0 [1, 5] _ _ rfl rfl rfl).1 (by decide)

/-- C73 (finding): the classes declare no copy constructor and no assignment. The ones the compiler supplies copy the pointer, so that a
write to the copy changes the original, and when both are destroyed the block is released twice. -/
theorem C73_copies_share {α : Type} (v w : Nat) (hvw : v ≠ w) (s : St α) (o : Obj) (b : Blk α) (hw : s.vars w = some o) (hb : s.heap o.ptr = some b) :
    ∃ s1 s2, copyCtor v w s = .ok ((), s1) ∧ (∃ o', s1.vars v = some o' ∧ s1.vars w = some o ∧ o'.ptr = o.ptr) ∧
      dtor w s1 = .ok ((), s2) ∧ dtor v s2 = .error .notAllocated := by
  refine ⟨{ s with vars := upd s.vars v (some o) }, { s with heap := upd s.heap o.ptr none, vars := upd (upd s.vars v (some o)) w none },
    by unfold copyCtor; rw [bind_ok (obj_ok hw)], ⟨o, upd_self _ _ _, ?_, rfl⟩, ?_, ?_⟩
  · dsimp only; rw [upd_ne _ _ hvw.symm]; exact hw
  · unfold dtor
    rw [bind_ok (obj_ok (o := o) (by dsimp only; rw [upd_ne _ _ hvw.symm]; exact hw)),
      bind_ok (b := ()) (s' := { s with heap := upd s.heap o.ptr none, vars := upd s.vars v (some o) }) (by unfold delete; dsimp only; rw [hb])]
  · unfold dtor
    rw [bind_ok (obj_ok (o := o) (by dsimp only; rw [upd_ne _ _ hvw, upd_self])), bind_err]
    unfold delete
    dsimp only
    rw [upd_self]

example : ∃ s1 s2, copyCtor 1 0 (⟨1, fun p => if p = 0 then some ⟨2, fun _ => some 5⟩ else none, fun v => if v = 0 then some ⟨2, 0, [2]⟩ else none⟩ : St ℕ) = .ok ((), s1) ∧
    dtor 0 s1 = .ok ((), s2) ∧ dtor 1 s2 = .error .notAllocated := by
  obtain ⟨s1, s2, h1, -, h3, h4⟩ := C73_copies_share 1 0 (by decide)
    (⟨1, fun p => if p = 0 then some ⟨2, fun _ => some 5⟩ else none, fun v => if v = 0 then some ⟨2, 0, [2]⟩ else none⟩ : St ℕ) ⟨2, 0, [2]⟩ ⟨2, fun _ => some 5⟩ rfl rfl
  exact ⟨s1, s2, h1, h3, h4⟩

/-- C73 (finding): `size` returns an `int`: a dimension of 2³¹ or more is reported as negative. -/
theorem C73_size {α : Type} (dbg : Bool) (v d : Nat) (s : St α) (o : Obj) (n : Nat) (hv : s.vars v = some o) (hd : o.dims[d]? = some n) (hn : n < 2 ^ 32) :
    ∃ z, size dbg v d s = .ok (z, s) ∧ (n < 2 ^ 31 → z = n) ∧ (2 ^ 31 ≤ n → z < 0) := by
  refine ⟨toInt n, by unfold size; rw [bind_ok (obj_ok hv), hd], fun h => ?_, fun h => ?_⟩
  · unfold toInt; rw [if_pos h]
  · unfold toInt; rw [if_neg (by omega)]; omega

example : ∃ z s', size true 0 1 (⟨1, fun _ => none, fun _ => some ⟨6, 0, [2, 3]⟩⟩ : St ℕ) = .ok (z, s') ∧ z = 3 := by
  obtain ⟨z, h1, h2, -⟩ := C73_size true 0 1 (⟨1, fun _ => none, fun _ => some ⟨6, 0, [2, 3]⟩⟩ : St ℕ) _ 3 rfl rfl (by norm_num)
  exact ⟨z, _, h1, h2 (by norm_num)⟩

end EdgeEval.Props
