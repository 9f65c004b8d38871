import Verif.Lemmas.CStringProg
import Verif.Model.MatrixMsg
import Verif.Spec.Int32

/-!
# C76: native exceptions carry their message and free it once; the messages of `Matrix`
-/

namespace EdgeEval.Props

open EdgeEval.CString EdgeEval.CString.Spec Text

theorem render_shown (m : Mem) (fs : List Piece) (h : NoPointers fs) : render m fs = .ok (shown fs) := by
  induction fs with
  | nil => rfl
  | cons f fs ih =>
    have ih := ih fun p off hm => h p off (by simp [hm])
    cases f with
    | text s =>
      rw [render, ih]; rfl
    | dec z =>
      rw [render, ih]; rfl
    | chars a =>
      cases a with
      | lit s => rw [render, ih]; rfl
      | «at» p off => exact absurd (by simp) (h p off)

/-- A heap in use: nothing is allocated above the next address. -/
def CleanHeap (m : Mem) : Prop := ∀ q, m.next ≤ q → m.blk q = none

/-- `m'` is `m` with one block more, at `e`. -/
def OneMore (m m' : Mem) (e : Nat) : Prop := m.blk e = none ∧ m'.blk e ≠ none ∧ ∀ q, q ≠ e → m'.blk q = m.blk q

theorem strdup_ok {m : Mem} (hf : CleanHeap m) {a : CArg} {t : Str} (ha : a.str m = .ok t) (hn : nul ∉ t) :
    ∃ m', strdup a m = .ok (m.next, m') ∧ CleanHeap m' ∧ m'.next = m.next + 1 ∧ OneMore m m' m.next ∧ excMsg m.next m' = .ok t := by
  obtain ⟨m', h1, n1, o1, b1, hb1, s1, c1⟩ := wrN_ok (m := (alloc (t.length + 1) m).2) (p := m.next) (t ++ [nul]) 0
    (b := ⟨t.length + 1, fun _ => none⟩) (by simp [alloc]) (by simp)
  have hq : ∀ q, q ≠ m.next → m'.blk q = m.blk q := fun q hq => by
    rw [o1 q hq]; simp only [alloc]; exact if_neg hq
  refine ⟨m', ?_, ?_, by rw [n1]; rfl, ⟨hf _ le_rfl, by rw [hb1]; simp, hq⟩, ?_⟩
  · unfold strdup
    rw [ha]
    change (wrN m.next (t ++ [nul]) 0 (alloc (t.length + 1) m).2 >>= _) = _
    rw [h1]; rfl
  · intro q hq2
    rw [n1] at hq2
    simp only [alloc] at hq2
    rw [hq q (by omega)]
    exact hf q (by omega)
  · have hh : Has m' m.next 0 (t ++ [nul]) := by
      refine ⟨b1, hb1, by rw [s1]; simp, fun i hi => ?_⟩
      rw [Nat.zero_add, c1, if_pos ⟨by omega, by omega⟩, Nat.sub_zero]
    have := cstr_has hh
    unfold excMsg
    rw [this, takeWhile_of_notMem hn]

/-- **C76 (throwing).** `throw Exception (String (fmt, ...))` with a format that prints fewer than 127 characters: the exception carries exactly the printed
text (up to a NUL), the temporary string is gone, the only new block is the message, and destroying the exception gives the heap as it was before. -/
theorem C76_throw {m : Mem} (hf : CleanHeap m) (fs : List Piece) (h : NoPointers fs) (hl : (shown fs).length < 127)
    (hfl : (fs.map Piece.fmtLen).sum ≤ 2 ^ 28) :
    ∃ e m', throwFmt fs m = .ok (e, m') ∧ CleanHeap m' ∧ OneMore m m' e ∧ excMsg e m' = .ok (cpart (shown fs)) ∧
      ∃ m'', excDestroy e m' = .ok m'' ∧ m''.blk = m.blk := by
  obtain ⟨o, m1, h1, h2, h3, -⟩ := mkFmt_ok hf fs (t := shown fs) (fun m' _ => render_shown m' fs h) (.inl hl) hfl
  have hf1 : CleanHeap m1 := by
    intro q hq
    have := h2.lo
    have := h2.hi
    rw [h2.other q (by omega)]
    exact hf q (by omega)
  have hstr : (CArg.at o.ptr 0).str m1 = .ok (cpart (shown fs)) := by
    have := h3.cstr (off := 0) (by simp)
    rw [List.drop_zero, takeWhile_of_notMem (nul_notMem_takeWhile _)] at this
    exact this
  obtain ⟨m2, g1, g2, g3, ⟨ga, gb, gc⟩, g5⟩ := strdup_ok hf1 hstr (nul_notMem_takeWhile _)
  have hlo := h2.lo
  have hhi := h2.hi
  obtain ⟨b, hb, -⟩ := id h3
  obtain ⟨m3, f1, f2, f3, f4⟩ := free_ok (m := m2) (p := o.ptr) (b := b) (by rw [gc _ (by omega)]; exact hb)
  have hblk : ∀ q, q ≠ m1.next → m3.blk q = m.blk q := by
    intro q hq
    by_cases hqo : q = o.ptr
    · rw [hqo, f3, hf _ hlo]
    · rw [f4 q hqo, gc q hq, h2.other q hqo]
  have hnew : m3.blk m1.next ≠ none := by rw [f4 _ (by omega)]; exact gb
  refine ⟨m1.next, m3, ?_, ?_, ⟨hf _ (by omega), hnew, hblk⟩, ?_, ?_⟩
  · unfold throwFmt
    rw [h1]
    change (strdup _ m1 >>= _) = _
    rw [g1]
    change (free o.ptr m2 >>= _) = _
    rw [f1]; rfl
  · intro q hq
    rw [hblk q (by omega)]
    exact hf q (by omega)
  · unfold excMsg at g5 ⊢
    have hsame : m3.blk m1.next = m2.blk m1.next := f4 _ (by omega)
    have hrd : ∀ i, rd m1.next i m3 = rd m1.next i m2 := fun i => by unfold rd; rw [hsame]
    have hgo : ∀ k i, cstrGo m1.next m3 k i = cstrGo m1.next m2 k i := by
      intro k
      induction k with
      | zero => intro i; rfl
      | succ k ih => intro i; rw [cstrGo, cstrGo, hrd]; simp only [ih]
    rw [← g5]
    unfold cstr
    rw [hsame]
    simp only [hgo]
  · cases hb3 : m3.blk m1.next with
    | none => exact absurd hb3 hnew
    | some b3 =>
      obtain ⟨m4, k1, k2, k3, k4⟩ := free_ok hb3
      refine ⟨m4, k1, funext fun q => ?_⟩
      by_cases hq : q = m1.next
      · rw [hq, k3, hf _ (by omega)]
      · rw [k4 q hq, hblk q hq]

theorem intStr_length {z : ℤ} (h : FitsInt z) : (intStr z).length ≤ 11 := by
  have h1 : z.natAbs < 10 ^ 10 := by unfold FitsInt at h; norm_num at h ⊢; omega
  have := pyStr_length_le z.natAbs 10 (by norm_num) h1
  unfold intStr natStr
  split <;> simp <;> omega

/-- Upper bound of what a format shows when numbers have at most 11 characters. -/
def bound11 : List Piece → Nat
  | [] => 0
  | .text s :: fs => s.length + bound11 fs
  | .dec _ :: fs => 11 + bound11 fs
  | .chars (.lit s) :: fs => s.length + bound11 fs
  | .chars (.at _ _) :: fs => bound11 fs

theorem shown_length (fs : List Piece) (h : ∀ z, Piece.dec z ∈ fs → FitsInt z) : (shown fs).length ≤ bound11 fs := by
  induction fs with
  | nil => simp [shown, bound11]
  | cons f fs ih =>
    have ih := ih fun z hz => h z (by simp [hz])
    cases f with
    | text s => simp only [shown, bound11, List.length_append]; omega
    | dec z =>
      have := intStr_length (h z (by simp))
      simp only [shown, bound11, List.length_append]; omega
    | chars a =>
      cases a with
      | lit s =>
        have : (cpart s).length ≤ s.length := (List.takeWhile_sublist _).length_le
        simp only [shown, bound11, List.length_append]; omega
      | «at» p off => simp only [shown, bound11]; omega

/-- The piece with its number replaced by 0. -/
def zeroPiece : Piece → Piece
  | .dec _ => .dec 0
  | f => f

/-- The error with its numbers replaced by 0. -/
def zeroErr : MatErr → MatErr
  | .reshape _ _ _ _ => .reshape 0 0 0 0
  | .index1 _ _ => .index1 0 0
  | .index1c _ _ => .index1c 0 0
  | .index2 _ _ _ _ => .index2 0 0 0 0
  | .gather _ _ => .gather 0 0
  | .scatterLen _ _ => .scatterLen 0 0
  | .scatter _ _ => .scatter 0 0
  | .extract _ _ _ _ _ _ => .extract 0 0 0 0 0 0
  | .insert _ _ _ _ _ _ => .insert 0 0 0 0 0 0
  | .diag _ _ _ => .diag 0 0 0
  | .min2 _ _ _ _ => .min2 0 0 0 0
  | .max2 _ _ _ _ => .max2 0 0 0 0
  | .opAssign op _ _ _ _ => .opAssign op 0 0 0 0
  | .powAssign _ _ _ _ => .powAssign 0 0 0 0
  | .binary op _ _ _ _ => .binary op 0 0 0 0
  | .pow _ _ _ _ => .pow 0 0 0 0
  | .fun2 op _ _ _ _ => .fun2 op 0 0 0 0
  | .mtimes _ _ _ _ => .mtimes 0 0 0 0

/-- Is the piece harmless: no pointer, no NUL in the text? -/
def plainPiece : Piece → Bool
  | .text s => decide (nul ∉ s)
  | .dec _ => true
  | .chars (.lit _) => true
  | .chars (.at _ _) => false

theorem zeroErr_pieces (err : MatErr) : (zeroErr err).pieces = err.pieces.map zeroPiece := by cases err <;> rfl

theorem bound11_zero (fs : List Piece) : bound11 (fs.map zeroPiece) = bound11 fs := by
  induction fs with
  | nil => rfl
  | cons f fs ih =>
    cases f with
    | text s => simp only [List.map_cons, zeroPiece, bound11, ih]
    | dec z => simp only [List.map_cons, zeroPiece, bound11, ih]
    | chars a => cases a <;> simp only [List.map_cons, zeroPiece, bound11, ih]

theorem fmtLen_zero (fs : List Piece) : ((fs.map zeroPiece).map Piece.fmtLen).sum = (fs.map Piece.fmtLen).sum := by
  rw [List.map_map]
  congr 1
  apply List.map_congr_left
  intro f _
  cases f <;> rfl

theorem plain_zero (fs : List Piece) : (fs.map zeroPiece).all plainPiece = fs.all plainPiece := by
  induction fs with
  | nil => rfl
  | cons f fs ih =>
    rw [List.map_cons, List.all_cons, List.all_cons, ih]
    cases f <;> rfl

theorem matErr_checked (err : MatErr) (hn : err.named = true) :
    bound11 err.pieces ≤ 119 ∧ (err.pieces.map Piece.fmtLen).sum ≤ 127 ∧ err.pieces.all plainPiece = true := by
  rw [← bound11_zero, ← fmtLen_zero, ← plain_zero, ← zeroErr_pieces]
  cases err with
  | opAssign op r c r' c' =>
    simp only [MatErr.named, List.any_cons, List.any_nil, Bool.or_eq_true, decide_eq_true_eq, Bool.or_false] at hn
    rw [zeroErr]
    rcases hn with rfl | rfl | rfl | rfl <;> decide +kernel
  | binary op r c r' c' =>
    simp only [MatErr.named, List.any_cons, List.any_nil, Bool.or_eq_true, decide_eq_true_eq, Bool.or_false] at hn
    rw [zeroErr]
    rcases hn with rfl | rfl | rfl | rfl | rfl | rfl | rfl | rfl | rfl | rfl | rfl | rfl <;> decide +kernel
  | fun2 op r c r' c' =>
    simp only [MatErr.named, List.any_cons, List.any_nil, Bool.or_eq_true, decide_eq_true_eq, Bool.or_false] at hn
    rw [zeroErr]
    rcases hn with rfl | rfl | rfl <;> decide +kernel
  | _ => rw [zeroErr]; decide +kernel

theorem matErr_bound (err : MatErr) (hn : err.named = true) : bound11 err.pieces ≤ 119 ∧ (err.pieces.map Piece.fmtLen).sum ≤ 127 ∧ NoPointers err.pieces := by
  obtain ⟨h1, h2, h3⟩ := matErr_checked err hn
  refine ⟨h1, h2, fun p off hm => ?_⟩
  have := List.all_eq_true.1 h3 _ hm
  cases this

/-- **C76 (messages of `Matrix`).** Every formatted error of `Matrix.cc`, for all values of the 32-bit numbers in it, is printed in one go (the `va_list` is used
once): the exception carries the complete message, one block is left, and it goes when the exception is destroyed. -/
theorem C76_matrix_messages {m : Mem} (hf : CleanHeap m) (err : MatErr) (hn : err.named = true) (hz : ∀ z, Piece.dec z ∈ err.pieces → FitsInt z) :
    ∃ e m', throwFmt err.pieces m = .ok (e, m') ∧ OneMore m m' e ∧ excMsg e m' = .ok (shown err.pieces) ∧
      ∃ m'', excDestroy e m' = .ok m'' ∧ m''.blk = m.blk := by
  obtain ⟨h1, h2, h3⟩ := matErr_bound err hn
  have hl := shown_length err.pieces hz
  obtain ⟨e, m', g1, g2, g3, g4, g5⟩ := C76_throw hf err.pieces h3 (by omega) (by omega)
  refine ⟨e, m', g1, g3, ?_, g5⟩
  rw [g4]
  congr 1
  apply takeWhile_of_notMem
  -- no NUL in the texts, the numbers and the names
  have hdig : ∀ z : ℤ, nul ∉ intStr z := by
    intro z hm
    have hd : ∀ n : Nat, nul ∉ natStr n := by
      intro n hm
      obtain ⟨d, hd, he⟩ := natStr_mem hm
      have : ∀ d < 10, nul ≠ digitCh d := by decide
      exact this d hd he
    unfold intStr at hm
    split at hm
    · rcases List.mem_cons.1 hm with h | h
      · exact absurd h (by decide)
      · exact hd _ h
    · exact hd _ hm
  have key : ∀ fs : List Piece, (∀ s, Piece.text s ∈ fs → nul ∉ s) → nul ∉ shown fs := by
    intro fs
    induction fs with
    | nil => intro _ hm; cases hm
    | cons f fs ih =>
      intro ht
      have ih := ih fun s hs => ht s (by simp [hs])
      cases f with
      | text s => simp only [shown, List.mem_append, not_or]; exact ⟨ht s (by simp), ih⟩
      | dec z => simp only [shown, List.mem_append, not_or]; exact ⟨hdig z, ih⟩
      | chars a =>
        cases a with
        | lit s => simp only [shown, List.mem_append, not_or]; exact ⟨nul_notMem_takeWhile s, ih⟩
        | «at» p off => simp only [shown]; exact ih
  apply key
  intro s hs
  have := List.all_eq_true.1 (matErr_checked err hn).2.2 _ hs
  simpa [plainPiece] using this

/-- The largest message, `diag`-like errors with extreme numbers. -/
example : ∃ e m', throwFmt (MatErr.extract (-2147483648) 2147483647 (-2147483648) 2147483647 2147483647 2147483647).pieces St.empty.mem = .ok (e, m') ∧
    excMsg e m' = .ok "Matrix extract (-2147483648:2147483647,-2147483648:2147483647) exceeds matrix dimensions (2147483647,2147483647).".toList := by
  obtain ⟨e, m', h1, -, h2, -⟩ := C76_matrix_messages (m := St.empty.mem) (fun _ _ => rfl)
    (.extract (-2147483648) 2147483647 (-2147483648) 2147483647 2147483647 2147483647) rfl (by
      intro z hz
      simp only [MatErr.pieces, rangePieces, List.mem_cons, List.not_mem_nil, or_false, reduceCtorEq, false_or, Piece.dec.injEq] at hz
      unfold FitsInt
      omega)
  refine ⟨e, m', h1, ?_⟩
  exact h2.trans (by congr 1)

example : ∃ e m', throwFmt (MatErr.binary "<=".toList 3 4 5 6).pieces St.empty.mem = .ok (e, m') ∧
    excMsg e m' = .ok "Matrix size mismatch in binary operation '<=': (3,4) vs. (5,6).".toList := by
  obtain ⟨e, m', h1, -, h2, -⟩ := C76_matrix_messages (m := St.empty.mem) (fun _ _ => rfl) (.binary "<=".toList 3 4 5 6) (by decide +kernel) (by
      intro z hz
      simp only [MatErr.pieces, vs, List.mem_cons, List.not_mem_nil, or_false, reduceCtorEq, false_or, Piece.dec.injEq] at hz
      unfold FitsInt
      omega)
  refine ⟨e, m', h1, ?_⟩
  exact h2.trans (by congr 1)

/-- **C76 (copies).** A copy of an exception has a block of its own: the copy's message is the same, destroying the original leaves it readable, destroying
both gives the heap as it was before. -/
theorem C76_copy {m : Mem} (hf : CleanHeap m) (e : Nat) {t : Str} (he : excMsg e m = .ok t) (hn : nul ∉ t) :
    ∃ e' m1, excCopy e m = .ok (e', m1) ∧ e' ≠ e ∧ CleanHeap m1 ∧ OneMore m m1 e' ∧ excMsg e' m1 = .ok t ∧ excMsg e m1 = .ok t ∧
      ∃ m2, excDestroy e m1 = .ok m2 ∧ CleanHeap m2 ∧ excMsg e' m2 = .ok t ∧ excMsg e m2 = .error .dangling ∧
        (∀ q, q ≠ e → q ≠ e' → m2.blk q = m.blk q) ∧ m2.blk e = none ∧
        ∃ m3, excDestroy e' m2 = .ok m3 ∧ m3.blk e' = none ∧ ∀ q, q ≠ e → m3.blk q = m.blk q := by
  obtain ⟨m1, h1, h2, h3, ⟨ha, hb, hc⟩, h5⟩ := strdup_ok hf (a := .at e 0) he hn
  have hblk : m.blk e ≠ none := by
    intro hne
    unfold excMsg cstr at he
    rw [hne] at he
    cases he
  have hne : m.next ≠ e := by
    intro h
    exact hblk (h ▸ ha)
  have hcongr : ∀ {a b : Mem} {p : Nat}, b.blk p = a.blk p → excMsg p b = excMsg p a := by
    intro a b p hsame
    have hrd : ∀ i, rd p i b = rd p i a := fun i => by unfold rd; rw [hsame]
    have hgo : ∀ k i, cstrGo p b k i = cstrGo p a k i := by
      intro k
      induction k with
      | zero => intro i; rfl
      | succ k ih => intro i; rw [cstrGo, cstrGo, hrd]; simp only [ih]
    unfold excMsg cstr
    rw [hsame]
    simp only [hgo]
  cases hbe : m.blk e with
  | none => exact absurd hbe hblk
  | some b =>
    obtain ⟨m2, g1, g2, g3, g4⟩ := free_ok (m := m1) (p := e) (b := b) (by rw [hc e hne.symm]; exact hbe)
    refine ⟨m.next, m1, h1, hne, h2, ⟨ha, hb, hc⟩, h5, by rw [hcongr (hc e hne.symm)]; exact he, m2, g1, ?_, ?_, ?_, ?_, g3, ?_⟩
    · intro q hq
      by_cases hqe : q = e
      · rw [hqe]; exact g3
      · rw [g4 q hqe]; exact h2 q (by omega)
    · rw [hcongr (g4 _ hne)]; exact h5
    · unfold excMsg cstr
      rw [g3]
    · intro q hq hq2
      rw [g4 q hq, hc q hq2]
    · cases hbn : m2.blk m.next with
      | none => rw [g4 _ hne] at hbn; exact absurd hbn hb
      | some b' =>
        obtain ⟨m3, k1, k2, k3, k4⟩ := free_ok hbn
        refine ⟨m3, k1, k3, fun q hq => ?_⟩
        by_cases hqn : q = m.next
        · rw [hqn, k3, ha]
        · rw [k4 q hqn, g4 q hq, hc q hqn]

/-- **C76 (on the way up).** However often an exception is copied and its original destroyed, it carries the same message at the end and exactly one block is
in use for it; the rest of the heap is as before. -/
theorem C76_rethrow (n : Nat) {m m0 : Mem} (hf : CleanHeap m) (e : Nat) {t : Str} (he : excMsg e m = .ok t) (hn : nul ∉ t)
    (h0 : ∀ q, q ≠ e → m.blk q = m0.blk q) (h0e : m0.blk e = none) (h0f : ∀ q, m.next ≤ q → m0.blk q = none) :
    ∃ e' m', rethrow n e m = .ok (e', m') ∧ excMsg e' m' = .ok t ∧ OneMore m0 m' e' := by
  induction n generalizing m e with
  | zero =>
    refine ⟨e, m, rfl, he, h0e, ?_, h0⟩
    intro hne
    unfold excMsg cstr at he
    rw [hne] at he
    cases he
  | succ n ih =>
    obtain ⟨e', m1, h1, h2, h3, ⟨h4, h5, h6⟩, -, -, m2, g1, g2, g3, -, g5, g6, -⟩ := C76_copy hf e he hn
    have hnext : m1.next = m.next + 1 ∧ m2.next = m1.next := by
      obtain ⟨m1', a1, a2, a3, -⟩ := strdup_ok hf (a := .at e 0) he hn
      have : m1' = m1 := by
        have h1' : strdup (.at e 0) m = .ok (e', m1) := h1
        rw [a1] at h1'
        cases h1'; rfl
      refine ⟨this ▸ a3, ?_⟩
      unfold excDestroy free at g1
      split at g1
      · cases g1
      · cases g1; rfl
    have hq1 : ∀ q, q ≠ e' → m2.blk q = m0.blk q := by
      intro q hq
      by_cases hqe : q = e
      · rw [hqe, g6, h0e]
      · rw [g5 q hqe hq, h0 q hqe]
    obtain ⟨e2, m3, k1, k2, k3⟩ := ih g2 e' g3 hq1 (by rw [← h0 e' h2, h4]) (fun q hq => h0f q (by omega))
    refine ⟨e2, m3, ?_, k2, k3⟩
    rw [rethrow, h1]
    change (excDestroy e m1 >>= _) = _
    rw [g1]; exact k1

/-- An exception of `Matrix` copied five times still has its message. -/
example : ∃ e m1 e' m', throwFmt (MatErr.index1 7 3).pieces St.empty.mem = .ok (e, m1) ∧ rethrow 5 e m1 = .ok (e', m') ∧
    excMsg e' m' = .ok "Index (7) exceeds matrix length (3).".toList := by
  have hshow : shown (MatErr.index1 7 3).pieces = "Index (7) exceeds matrix length (3).".toList := by decide +kernel
  obtain ⟨e, m1, h1, h2, ⟨h3, h4, h5⟩, h6, -⟩ := C76_throw (m := St.empty.mem) (fun _ _ => rfl) (MatErr.index1 7 3).pieces
    (matErr_bound _ rfl).2.2 (by rw [hshow]; decide +kernel) (by decide +kernel)
  rw [hshow] at h6
  obtain ⟨e', m', k1, k2, -⟩ := C76_rethrow 5 (m0 := St.empty.mem) h2 e h6 (by decide +kernel) h5 h3 (fun _ _ => rfl)
  refine ⟨e, m1, e', m', h1, k1, ?_⟩
  exact k2.trans (by congr 1)

/-- **C76 (assignment).** `Exception` declares no `operator=`: after `a = b` both hold the same block. Destroying both frees it twice, and the old message of
`a` is never freed. -/
theorem C76_assign_double_free {m : Mem} (a b : Nat) (hab : a ≠ b) (ha : m.blk a ≠ none) (hb : m.blk b ≠ none) :
    ∃ m1, excDestroy (excAssign a b) m = .ok m1 ∧ excDestroy b m1 = .error .badFree ∧ m1.blk a = m.blk a ∧ m1.blk a ≠ none := by
  cases hbb : m.blk b with
  | none => exact absurd hbb hb
  | some blk =>
    obtain ⟨m1, h1, h2, h3, h4⟩ := free_ok hbb
    refine ⟨m1, h1, ?_, h4 a hab, by rw [h4 a hab]; exact ha⟩
    unfold excDestroy free
    rw [h3]

example : ∃ m : Mem, m.blk 0 ≠ none ∧ m.blk 1 ≠ none :=
  ⟨⟨fun _ => some ⟨1, fun _ => some nul⟩, 2⟩, by simp, by simp⟩

end EdgeEval.Props
