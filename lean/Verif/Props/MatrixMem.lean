import Verif.Lemmas.MatrixProg

/-!
# C64: the class `Matrix` and the Cython wrappers, at the level of the heap
-/

namespace EdgeEval.Props

open EdgeEval EdgeEval.CsaMem EdgeEval.Spec EdgeEval.MatrixMem EdgeEval.Nms

theorem rel_clean {α : Type} {s : St α} (C : Clean s) : Rel s.heap s (fun _ => none) where
  fresh := C.fresh
  live v := by simp [C.noObj v]
  holds v m A h _ := by rw [C.noObj v] at h; cases h
  inj v w m m' p h _ _ _ := by rw [C.noObj v] at h; cases h
  keep _ _ h := h
  foreign v m p h _ := by rw [C.noObj v] at h; cases h
  owned _ _ h := .inl h

/-- C64: every terminating program over matrices and arrays, started on any heap, does exactly what it does when every matrix is
a value of its own.  In the end every living object is stored in a block of its own that was not allocated before, every block
that existed before is untouched, and every other block belongs to a living object: nothing is shared, overwritten, leaked or
released twice.  When the value program stops at an index out of range, an element never written or an assertion, so does the
program on the heap. -/
theorem C64_values {α β : Type} [Zero α] (P : Prog α β) (s : St α) (C : Clean s) :
    match eval P (fun _ => none) with
    | .ok (b, e) => ∃ s', run false P s = .ok (b, s') ∧ (∀ v, s'.vars v = none ↔ e v = none) ∧
        (∀ v A, e v = some A → ∃ m p, s'.vars v = some m ∧ Stored s'.heap m A p ∧ s.heap p = none) ∧
        (∀ v w m m', s'.vars v = some m → s'.vars w = some m' → m.data = m'.data → v = w) ∧
        (∀ p, (∃ v m, s'.vars v = some m ∧ m.data = some p) ∨ s'.heap p = s.heap p)
    | .error w => ∀ f, w.fault = some f → run false P s = .error f := by
  have h := run_refines P s _ (rel_clean C)
  cases he : eval P (fun _ => none) with
  | error w => rw [he] at h; exact h
  | ok be =>
    obtain ⟨b, e⟩ := be
    rw [he] at h
    obtain ⟨s', h1, R⟩ := h
    refine ⟨s', h1, R.live, fun v A hv => ?_, fun v w m m' hv hw hd => ?_, fun p => ?_⟩
    · obtain ⟨m, hm, a1, a2, -, -, p, b, hp, hb, hs, hc⟩ := R.get hv
      exact ⟨m, p, hm, ⟨a1, a2, hp, b, hb, hs, hc⟩, R.foreign v m p hm hp⟩
    · cases he' : e v with
      | none => rw [R.free he'] at hv; cases hv
      | some A =>
        obtain ⟨-, -, -, -, p, _, hp, -⟩ := R.holds v m A hv he'
        exact R.inj v w m m' p hv hw hp (by rw [← hd]; exact hp)
    · cases hp : s'.heap p with
      | some b =>
        rcases R.owned p b hp with h | h
        · exact .inr h.symm
        · exact .inl h
      | none =>
        refine .inr ?_
        cases hs : s.heap p with
        | none => rfl
        | some b => rw [R.keep p b hs] at hp; cases hp

/-- C64: no program whose names and shapes are in order ever touches memory that is not its own: whatever it does, the heap machine
ends normally, or with a thrown `Exception`, the use of an element never written, or an assertion of the program itself. -/
theorem C64_memory_safe {α β : Type} [Zero α] (P : Prog α β) (s : St α) (C : Clean s) (hP : eval P (fun _ => none) ≠ .error .misuse)
    (f : Fault) (hf : run false P s = .error f) : f = .exception ∨ f = .uninitialised ∨ f = .assertion := by
  have h := C64_values P s C
  cases he : eval P (fun _ => none) with
  | error w =>
    rw [he] at h
    cases w with
    | exception => rw [h _ rfl] at hf; cases hf; exact .inl rfl
    | uninitialised => rw [h _ rfl] at hf; cases hf; exact .inr (.inl rfl)
    | abort => rw [h _ rfl] at hf; cases hf; exact .inr (.inr rfl)
    | misuse => exact absurd he hP
  | ok be =>
    rw [he] at h
    obtain ⟨s', h1, -⟩ := h
    rw [h1] at hf
    cases hf

/-- C64: when all objects have been destroyed, the heap is as before. -/
theorem C64_no_leak {α β : Type} [Zero α] (P : Prog α β) (s s' : St α) (C : Clean s) (b : β)
    (hP : ∃ b', eval P (fun _ => none) = .ok (b', fun _ => none)) (hr : run false P s = .ok (b, s')) :
    s'.heap = s.heap ∧ ∀ v, s'.vars v = none := by
  obtain ⟨b', hP⟩ := hP
  have h := C64_values P s C
  rw [hP] at h
  obtain ⟨s'', h1, h2, -, -, h5⟩ := h
  rw [hr] at h1
  cases h1
  refine ⟨funext fun p => ?_, fun v => (h2 v).2 rfl⟩
  rcases h5 p with ⟨v, m, hv, _⟩ | h
  · rw [(h2 v).2 rfl] at hv
    cases hv
  · exact h

/-- C64: copies are deep: after any program, an element of `w` keeps its value when `w` is assigned to `v` and any element of `v` is
written. -/
theorem C64_deep_copy {α : Type} [Zero α] (P : Prog α Unit) (s : St α) (C : Clean s) (v w : Nat) (hvw : v ≠ w) (i j i' j' : Int) (x : α)
    (r : α × α) (s' : St α)
    (hP : ∃ e A B, eval P (fun _ => none) = .ok ((), e) ∧ e v = some A ∧ e w = some B)
    (hr : run false (P.bind fun _ => .get w i j fun y => .assign v w (.put v i' j' x (.get w i j fun y' => .ret (y, y')))) s = .ok (r, s')) :
    r.1 = r.2 := by
  obtain ⟨e, A, B, hP, hA, hB⟩ := hP
  have h := C64_values (P.bind fun _ => .get w i j fun y => .assign v w (.put v i' j' x (.get w i j fun y' => .ret (y, y')))) s C
  rw [eval_bind_ok hP] at h
  rw [eval] at h
  unfold the at h
  rw [hB] at h
  dsimp only [bind, Except.bind] at h
  by_cases hin : B.inRange i j
  · rw [if_pos hin] at h
    cases hy : B.cell i.toNat j.toNat with
    | none =>
      rw [hy] at h
      dsimp only at h
      rw [h _ rfl] at hr
      cases hr
    | some y =>
      rw [hy] at h
      dsimp only at h
      rw [eval_assign hvw hA hB, eval] at h
      unfold the at h
      rw [upd_self] at h
      dsimp only [bind, Except.bind] at h
      by_cases hin' : B.inRange i' j'
      · rw [if_pos hin', eval] at h
        unfold the at h
        rw [upd_ne _ _ (Ne.symm hvw), upd_ne _ _ (Ne.symm hvw), hB] at h
        dsimp only [bind, Except.bind] at h
        rw [if_pos hin, hy] at h
        dsimp only at h
        rw [eval_ret] at h
        obtain ⟨s'', h1, -⟩ := h
        rw [hr] at h1
        cases h1
        rfl
      · rw [if_neg hin'] at h
        dsimp only at h
        rw [h _ rfl] at hr
        cases hr
  · rw [if_neg hin] at h
    dsimp only at h
    rw [h _ rfl] at hr
    cases hr

/-- C64: `nms` on any two images, any parameters and any heap.  With a result, the array returned is the only object left, it holds
that result, and the rest of the heap is untouched; with a `ValueError` nothing is left behind; otherwise the C++ code throws. -/
theorem C64_nms (edge ori : Img ℝ) (r s : ℤ) (m : ℝ) (st : St ℝ) (C : Clean st) :
    match nms edge ori r s m with
    | .ok im => ∃ st' a p, run false (nmsP edge ori r s m) st = .ok (true, st') ∧
        (∀ v, st'.vars v = if v = vOut then some a else none) ∧ Stored st'.heap a (ofImg im) p ∧ st.heap p = none ∧
        ∀ q, q ≠ p → st'.heap q = st.heap q
    | .error .valueError => ∃ st', run false (nmsP edge ori r s m) st = .ok (false, st') ∧ (∀ v, st'.vars v = none) ∧ st'.heap = st.heap
    | .error _ => run false (nmsP edge ori r s m) st = .error .exception := by
  have h := C64_values (nmsP edge ori r s m) st C
  rw [eval_nmsP] at h
  cases hn : nms edge ori r s m with
  | ok im =>
    rw [hn] at h
    dsimp only at h ⊢
    obtain ⟨st', h1, h2, h3, h4, h5⟩ := h
    obtain ⟨a, p, ha, hs, hp⟩ := h3 vOut (ofImg im) (upd_self _ _ _)
    have hother : ∀ v, v ≠ vOut → st'.vars v = none := fun v hv => (h2 v).2 (by unfold onlyOut; rw [upd_ne _ _ hv])
    refine ⟨st', a, p, h1, fun v => ?_, hs, hp, fun q hq => ?_⟩
    · by_cases hv : v = vOut
      · rw [if_pos hv, hv, ha]
      · rw [if_neg hv, hother v hv]
    · rcases h5 q with ⟨v, m', hv, hd⟩ | h
      · by_cases hvo : v = vOut
        · rw [hvo, ha] at hv
          cases hv
          rw [hs.2.2.1] at hd
          cases hd
          exact absurd rfl hq
        · rw [hother v hvo] at hv
          cases hv
      · exact h
  | error er =>
    rw [hn] at h
    have hv : ∀ st', run false (nmsP edge ori r s m) st = .ok (false, st') → eval (nmsP edge ori r s m) (fun _ => none) = .ok (false, fun _ => none) →
        (∀ v, st'.vars v = none) ∧ st'.heap = st.heap := fun st' h1 h2 => by
      obtain ⟨g1, g2⟩ := C64_no_leak _ st st' C false ⟨false, h2⟩ h1
      exact ⟨g2, g1⟩
    cases er with
    | valueError =>
      dsimp only at h ⊢
      obtain ⟨st', h1, -⟩ := h
      refine ⟨st', h1, hv st' h1 ?_⟩
      rw [eval_nmsP, hn]
    | _ =>
      dsimp only at h ⊢
      exact h _ rfl

/-- C64: `correspond_pixels` on any two images, any parameters, any random stream and any heap.  With a result, the two arrays returned
are the only objects left, in different blocks, they hold that result row by row and column by column (not transposed), and the
rest of the heap is untouched; with a `ValueError` nothing is left behind. -/
theorem C64_correspond (fuel : Nat) (i0 i1 : Img ℚ) (maxDist outlierCost : ℚ) (xs : Nat → ℚ) (pos : Nat) (st : St ℚ) (C : Clean st) :
    match correspondPixels fuel i0 i1 maxDist outlierCost xs pos with
    | .ok (some r) => ∃ st' a0 a1 p0 p1, run false (corrP fuel i0 i1 maxDist outlierCost xs pos) st = .ok (some (r.cost, r.oc), st') ∧
        (∀ v, st'.vars v = if v = aO0 then some a0 else if v = aO1 then some a1 else none) ∧ p0 ≠ p1 ∧
        (∃ A, Stored st'.heap a0 A p0 ∧ A.rows = i0.rows ∧ A.cols = i0.cols ∧
          ∀ y < i0.rows, ∀ x < i0.cols, A.cell y x = some (r.o0 y x : ℚ)) ∧
        (∃ A, Stored st'.heap a1 A p1 ∧ A.rows = i0.rows ∧ A.cols = i0.cols ∧
          ∀ y < i0.rows, ∀ x < i0.cols, A.cell y x = some (r.o1 y x : ℚ)) ∧
        st.heap p0 = none ∧ st.heap p1 = none ∧ ∀ q, q ≠ p0 → q ≠ p1 → st'.heap q = st.heap q
    | .ok none => run false (corrP fuel i0 i1 maxDist outlierCost xs pos) st = .error .assertion
    | .error _ => ∃ st', run false (corrP fuel i0 i1 maxDist outlierCost xs pos) st = .ok (none, st') ∧ (∀ v, st'.vars v = none) ∧
        st'.heap = st.heap := by
  have h := C64_values (corrP fuel i0 i1 maxDist outlierCost xs pos) st C
  have he := eval_corrP fuel i0 i1 maxDist outlierCost xs pos
  cases hc : correspondPixels fuel i0 i1 maxDist outlierCost xs pos with
  | error er =>
    rw [hc] at he
    dsimp only at he ⊢
    rw [he] at h
    obtain ⟨st', h1, -⟩ := h
    obtain ⟨g1, g2⟩ := C64_no_leak _ st st' C none ⟨none, he⟩ h1
    exact ⟨st', h1, g2, g1⟩
  | ok o =>
    rw [hc] at he
    cases o with
    | none =>
      dsimp only at he ⊢
      rw [he] at h
      exact h _ rfl
    | some r =>
      dsimp only at he ⊢
      obtain ⟨f0, f1, he, hf⟩ := he
      rw [he] at h
      obtain ⟨st', h1, h2, h3, h4, h5⟩ := h
      obtain ⟨a0, p0, ha0, hs0, hp0⟩ := h3 aO0 (full i0.rows i0.cols f0) rfl
      obtain ⟨a1, p1, ha1, hs1, hp1⟩ := h3 aO1 (full i0.rows i0.cols f1) rfl
      have hother : ∀ v, v ≠ aO0 → v ≠ aO1 → st'.vars v = none := fun v hv hv' => (h2 v).2 (by rw [upd_ne _ _ hv', upd_ne _ _ hv])
      refine ⟨st', a0, a1, p0, p1, h1, fun v => ?_, ?_, ⟨_, hs0, rfl, rfl, ?_⟩, ⟨_, hs1, rfl, rfl, ?_⟩, hp0, hp1, fun q hq hq' => ?_⟩
      · by_cases hv : v = aO0
        · rw [if_pos hv, hv, ha0]
        · rw [if_neg hv]
          by_cases hv' : v = aO1
          · rw [if_pos hv', hv', ha1]
          · rw [if_neg hv', hother v hv hv']
      · rintro rfl
        have := h4 aO0 aO1 a0 a1 ha0 ha1 (by rw [hs0.2.2.1, hs1.2.2.1])
        exact absurd this (by decide)
      · intro y hy x hx
        exact congrArg some (hf y hy x hx).1
      · intro y hy x hx
        exact congrArg some (hf y hy x hx).2
      · rcases h5 q with ⟨v, m', hv, hd⟩ | h
        · by_cases hvo : v = aO0
          · rw [hvo, ha0] at hv
            cases hv
            rw [hs0.2.2.1] at hd
            cases hd
            exact absurd rfl hq
          · by_cases hvo' : v = aO1
            · rw [hvo', ha1] at hv
              cases hv
              rw [hs1.2.2.1] at hd
              cases hd
              exact absurd rfl hq'
            · rw [hother v hvo hvo'] at hv
              cases hv
        · exact h

/-! ## What is not covered by the value semantics -/

/-- C64: the constructor `Matrix(rows, cols, data)` does not set the member `_n`: assigning such a matrix to any other one reads an
uninitialised member, so that it cannot be copied, although its elements can be read. -/
theorem C64_wrapped {α : Type} [Zero α] (s : St α) (v w p : Nat) (rows cols : Int) (hw : s.vars w = none) (m : Mat) (n : Nat)
    (hv : s.vars v = some m) (hn : m.n = some n) (b : Bool) :
    ∃ s', ctorWrapped w rows cols (some p) s = .ok ((), s') ∧ MatrixMem.assign b v w s' = .error .uninitialised ∧
      ∀ blk : Blk α, s.heap p = some blk → ∀ i j : Int, 0 ≤ i → i < rows → 0 ≤ j → j < cols →
        ∀ x, (j * rows + i).toNat < blk.size → blk.cell (j * rows + i).toNat = some x → MatrixMem.get w i j s' = .ok (x, s') := by
  have hvw : v ≠ w := by rintro rfl; rw [hw] at hv; cases hv
  refine ⟨{ s with vars := MatrixMem.upd s.vars w (some ⟨(max 0 rows).toNat, (max 0 cols).toNat, none, some p, true⟩) }, ?_, ?_, ?_⟩
  · unfold ctorWrapped
    rw [bind_ok (fresh_ok hw)]
    rfl
  · unfold MatrixMem.assign
    rw [bind_ok (obj_ok (m := m) (by dsimp only; rw [upd_ne _ _ hvw]; exact hv)), bind_ok (obj_ok (by exact upd_self _ _ _)),
      bind_ok (memberN_ok hn), bind_err]
    rfl
  · intro blk hb i j h1 h2 h3 h4 x h5 h6
    unfold MatrixMem.get
    rw [bind_ok (obj_ok (by exact upd_self _ _ _))]
    have e : j.toNat * (max 0 rows).toNat + i.toNat = (j * rows + i).toNat := by
      rw [max_eq_right (by omega), Int.toNat_add (mul_nonneg h3 (by omega)) h1, Int.toNat_mul h3 (by omega)]
    rw [bind_ok (b := (j * rows + i).toNat) (s' := _)]
    · exact load_ok hb h5 h6
    · unfold element
      dsimp only
      rw [if_pos (by omega), e]

/-- C64: were `malloc(0)` to return a null pointer, the first assignment of a matrix with elements to a default-constructed one — as in
both wrappers — would fail the assertion of the destructor's helper. -/
theorem C64_malloc_zero {α : Type} [Zero α] (s : St α) (v w : Nat) (hvw : v ≠ w) (hv : s.vars v = none) (hw : s.vars w = none)
    (rows cols : Nat) (hr : 0 < rows) (hc : 0 < cols) :
    run true (.ctorDefault v (.ctorSized w rows cols (.assign v w (.ret ())))) s = .error .assertion := by
  have hn : rows * cols ≠ 0 := Nat.mul_ne_zero (by omega) (by omega)
  unfold run MatrixMem.ctorDefault
  rw [bind_ok (b := ()) (s' := { s with vars := MatrixMem.upd s.vars v (some ⟨0, 0, some 0, none, false⟩) })]
  · unfold run MatrixMem.ctorSized
    rw [bind_ok (b := ()) (s' := ⟨s.next + 1, MatrixMem.upd s.heap s.next (some ⟨rows * cols, fun _ => some 0⟩),
      MatrixMem.upd (MatrixMem.upd s.vars v (some ⟨0, 0, some 0, none, false⟩)) w (some ⟨rows, cols, some (rows * cols), some s.next, false⟩)⟩)]
    · unfold run MatrixMem.assign
      rw [bind_err]
      rw [bind_ok (obj_ok (m := ⟨0, 0, some 0, none, false⟩) (by dsimp only; rw [upd_ne _ _ hvw, upd_self])),
        bind_ok (obj_ok (by exact upd_self _ _ _)), bind_ok (memberN_ok rfl), bind_ok (memberN_ok rfl), if_neg (Ne.symm hn), bind_err]
      unfold deleteMat
      rw [bind_ok (obj_ok (m := ⟨0, 0, some 0, none, false⟩) (by dsimp only; rw [upd_ne _ _ hvw, upd_self]))]
    · rw [bind_ok (fresh_ok (by dsimp only; rw [upd_ne _ _ (Ne.symm hvw)]; exact hw))]
      have e1 : (max 0 (rows : Int)).toNat = rows := by omega
      have e2 : (max 0 (cols : Int)).toNat = cols := by omega
      rw [e1, e2]
      unfold allocMat
      rw [bind_ok (b := some s.next) (s' := ⟨s.next + 1, MatrixMem.upd s.heap s.next (some ⟨rows * cols, fun _ => some 0⟩),
        MatrixMem.upd s.vars v (some ⟨0, 0, some 0, none, false⟩)⟩)]
      · rfl
      · unfold alloc
        rw [if_neg (by simp; omega)]
  · rw [bind_ok (fresh_ok hv)]
    rfl

/-! ## Witnesses -/

/-- A heap with one block of somebody else. -/
def stEx : St ℤ := ⟨1, MatrixMem.upd (fun _ => none) 0 (some ⟨3, fun _ => some 7⟩), fun _ => none⟩

example : Clean stEx := ⟨fun _ => rfl, fun p hp => by
  have : p ≠ 0 := by have : 1 ≤ p := hp; omega
  unfold stEx
  dsimp only
  rw [upd_ne _ _ this]⟩

/-- Two matrices, the second a copy, then changed; the first is read, both are destroyed. -/
def progEx : Prog ℤ ℤ :=
  .ctorSized 0 2 3 <| .put 0 1 2 5 <| .ctorCopy 1 0 <| .put 1 1 2 9 <| .assign 1 0 <| .put 1 1 2 8 <| .get 0 1 2 fun x =>
    .dtor 0 <| .dtor 1 <| .ret x

example : (eval progEx fun _ => none).toOption.map (·.1) = some 5 := by decide +kernel

example : (run false progEx stEx).toOption.map (fun r => (r.1, (r.2.heap 0).map (·.size), (r.2.heap 1).isNone, (r.2.heap 2).isNone)) =
    some (5, some 3, true, true) := by decide +kernel

/-- An index out of range throws; a matrix read before it is written is noticed. -/
example : run false (.ctorSized 0 2 3 (.get 0 (-1) 0 fun x => .ret x) : Prog ℤ ℤ) stEx = .error .exception := rfl

example : ∃ e A B, eval (.ctorSized 0 2 3 (.ctorDefault 1 (.ret ())) : Prog ℤ Unit) (fun _ => none) = .ok ((), e) ∧ e 1 = some A ∧
    e 0 = some B := ⟨_, _, _, rfl, rfl, rfl⟩

/-- `nms` has a result for an image of zeros. -/
example : ∃ im, nms ⟨2, 2, fun _ _ => 0⟩ ⟨2, 2, fun _ _ => 0⟩ 1 5 1 = .ok im := by
  have h : ∀ l o, ∃ o', firstPass ⟨2, 2, fun _ _ => (0 : ℝ)⟩ ⟨2, 2, fun _ _ => (0 : ℝ)⟩ 1 1 l o = .ok o' := by
    intro l
    induction l with
    | nil => exact fun o => ⟨o, rfl⟩
    | cons p ps ih =>
      intro o
      unfold firstPass nmsPixel
      dsimp only
      rw [if_pos rfl]
      exact ih _
  obtain ⟨o, ho⟩ := h (loop2 2 2) fun _ _ => 0
  unfold nms benms
  rw [if_neg (by simp), if_neg (by simp)]
  dsimp only
  rw [ho]
  exact ⟨_, rfl⟩

example : nms ⟨2, 2, fun _ _ => 0⟩ ⟨2, 1, fun _ _ => 0⟩ 1 5 1 = .error .valueError := by
  unfold nms
  rw [if_pos (by simp)]

end EdgeEval.Props
