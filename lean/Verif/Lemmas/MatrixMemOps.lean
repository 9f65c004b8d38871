import Verif.Lemmas.MatrixMem

/-!
# Each operation of the heap machine does what the value semantics says
-/

namespace EdgeEval.MatrixMem

open EdgeEval EdgeEval.CsaMem EdgeEval.Spec

variable {α : Type} {base : Nat → Option (Blk α)} {s : St α} {e : MatEnv α}

theorem bind_ok {β γ : Type} {x : Op α β} {f : β → Op α γ} {s s' : St α} {b : β} (h : x s = .ok (b, s')) :
    (x.bind f) s = f b s' := by
  unfold Op.bind
  rw [h]

theorem bind_err {β γ : Type} {x : Op α β} {f : β → Op α γ} {s : St α} {er : Fault} (h : x s = .error er) :
    (x.bind f) s = .error er := by
  unfold Op.bind
  rw [h]

theorem idx_lt {r c i j : Nat} (hi : i < r) (hj : j < c) : j * r + i < r * c := by
  have : (j + 1) * r ≤ c * r := Nat.mul_le_mul_right r hj
  rw [Nat.add_mul, one_mul] at this
  rw [Nat.mul_comm r c]
  omega

theorem idx_inj {r i j i' j' : Nat} (hi : i < r) (hi' : i' < r) (h : j * r + i = j' * r + i') : i = i' ∧ j = j' := by
  have h1 : (j * r + i) % r = i := by rw [Nat.add_comm, Nat.add_mul_mod_self_right, Nat.mod_eq_of_lt hi]
  have h2 : (j' * r + i') % r = i' := by rw [Nat.add_comm, Nat.add_mul_mod_self_right, Nat.mod_eq_of_lt hi']
  have e1 : i = i' := by rw [← h1, ← h2, h]
  refine ⟨e1, ?_⟩
  subst e1
  have : j * r = j' * r := by omega
  exact Nat.eq_of_mul_eq_mul_right (by omega) this

theorem obj_ok {v : Nat} {m : Mat} (h : s.vars v = some m) : obj v s = .ok (m, s) := by
  unfold obj
  rw [h]

theorem fresh_ok {v : Nat} (h : s.vars v = none) : fresh v s = .ok ((), s) := by
  unfold fresh
  rw [h]

theorem memberN_ok {m : Mat} {n : Nat} (h : m.n = some n) : memberN m s = .ok (n, s) := by
  unfold memberN
  rw [h]

theorem block_ok {p : Nat} {b : Blk α} (h : s.heap p = some b) : block (some p) s = .ok ((p, b), s) := by
  unfold block
  dsimp only
  rw [h]

theorem allocMat_eq (v rows cols : Nat) (init : Option α) : allocMat false v rows cols init s =
    .ok ((), ⟨s.next + 1, upd s.heap s.next (some ⟨rows * cols, fun _ => init⟩),
      upd s.vars v (some ⟨rows, cols, some (rows * cols), some s.next, false⟩)⟩) := by
  unfold allocMat
  rw [bind_ok (b := some s.next) (s' := { s with next := s.next + 1
                                                 heap := upd s.heap s.next (some ⟨rows * cols, fun _ => init⟩) })]
  · rfl
  · unfold alloc
    rw [if_neg (by simp)]

theorem allocMat_ok (R : Rel base s e) {v : Nat} (hv : e v = none) (rows cols : Nat) (init : Option α) :
    ∃ s', allocMat false v rows cols init s = .ok ((), s') ∧ Rel base s' (upd e v (some ⟨rows, cols, fun _ _ => init⟩)) :=
  ⟨_, allocMat_eq v rows cols init, R.new hv rfl ⟨rfl, rfl, rfl, rfl⟩ rfl fun _ _ _ _ => rfl⟩

theorem deleteMat_eq {v p : Nat} {m : Mat} {b : Blk α} (hv : s.vars v = some m) (hp : m.data = some p) (hb : s.heap p = some b)
    (hw : m.wrapped = false) :
    deleteMat v s = .ok ((), ⟨s.next, upd s.heap p none, upd s.vars v (some ⟨0, 0, some 0, none, false⟩)⟩) := by
  unfold deleteMat
  rw [bind_ok (obj_ok hv)]
  simp only [hp, hw, Bool.false_eq_true, if_false]
  rw [bind_ok (b := ()) (s' := { s with heap := upd s.heap p none })]
  · rfl
  · unfold free
    rw [hb]

theorem dtor_ok (R : Rel base s e) {v : Nat} {A : MatVal α} (hv : e v = some A) :
    ∃ s', dtor v s = .ok ((), s') ∧ Rel base s' (upd e v none) := by
  obtain ⟨m, hm, -, -, -, hw, p, b, hp, hb, -⟩ := R.get hv
  refine ⟨_, ?_, R.remove hm hp⟩
  unfold dtor
  rw [bind_ok (deleteMat_eq hm hp hb hw)]
  unfold setObj
  dsimp only
  rw [upd_upd]

theorem copySame_ok (R : Rel base s e) {v w : Nat} (hvw : v ≠ w) {m that : Mat} {A B : MatVal α} (hm : s.vars v = some m)
    (ht : s.vars w = some that) (hv : e v = some A) (hw : e w = some B) {n : Nat} (hn : n = A.rows * A.cols)
    (hn' : n = B.rows * B.cols) :
    ∃ s', copySame v m that n s = .ok ((), s') ∧ Rel base s' (upd e v (some B)) := by
  obtain ⟨-, -, a3, a4, p, b, hp, hb, hs, -⟩ := R.holds v m A hm hv
  obtain ⟨b1, b2, -, -, q, b', hq, hb', hs', hc⟩ := R.holds w that B ht hw
  have hRel := R.write (A := B) (m' := { m with rows := that.rows, cols := that.cols })
    (b := ⟨b.size, fun i => if i < n then b'.cell i else b.cell i⟩) hm hp hp ⟨b1, b2, by rw [← hn', hn]; exact a3, a4⟩
    (by rw [hs, ← hn, hn']) (by
      intro i hi j hj
      dsimp only
      rw [if_pos (by rw [hn']; exact idx_lt hi hj)]
      exact hc i hi j hj)
  refine ⟨_, ?_, hRel⟩
  unfold copySame
  rw [bind_ok (b := ()) (s' := { s with vars := upd s.vars v (some { m with rows := that.rows, cols := that.cols }) }) rfl]
  unfold memcpy
  rw [hp, hq, bind_ok (block_ok (by exact hb)), bind_ok (block_ok (by exact hb'))]
  rw [if_neg (show ¬ p = q by rintro rfl; exact hvw (R.inj v w m that p hm ht hp hq)), if_pos ⟨by rw [hs, hn], by rw [hs', hn']⟩]

theorem assign_ok (R : Rel base s e) {v w : Nat} (hne : v ≠ w) {A B : MatVal α} (hv : e v = some A) (hw : e w = some B) :
    ∃ s', assign false v w s = .ok ((), s') ∧ Rel base s' (upd e v (some B)) := by
  obtain ⟨m, hm, -, -, a3, a4, p, b, hp, hb, hs, -⟩ := R.get hv
  obtain ⟨that, ht, b1, b2, b3, b4, q, b', hq, hb', hs', hc⟩ := R.get hw
  unfold assign
  rw [bind_ok (obj_ok hm), bind_ok (obj_ok ht), bind_ok (memberN_ok a3), bind_ok (memberN_ok b3)]
  by_cases hn : A.rows * A.cols = B.rows * B.cols
  · rw [if_pos hn]
    exact copySame_ok R hne hm ht hv hw rfl hn
  · rw [if_neg hn, bind_ok (deleteMat_eq hm hp hb a4), bind_ok (allocMat_eq ..)]
    have hvw : w ≠ v := Ne.symm hne
    have R1 := (R.remove hm hp).new (v := v) (upd_self _ _ _) (m := ⟨that.rows, that.cols, some (that.rows * that.cols), some s.next, false⟩)
      (b := ⟨that.rows * that.cols, fun _ => none⟩) (A := ⟨that.rows, that.cols, fun _ _ => none⟩) rfl ⟨rfl, rfl, rfl, rfl⟩ rfl
      (fun _ _ _ _ => rfl)
    rw [upd_upd] at R1
    dsimp only at R1 ⊢
    rw [upd_upd] at R1 ⊢
    set s2 : St α := ⟨s.next + 1, upd (upd s.heap p none) s.next (some ⟨that.rows * that.cols, fun _ => none⟩),
      upd s.vars v (some ⟨that.rows, that.cols, some (that.rows * that.cols), some s.next, false⟩)⟩ with hs2
    have hv2 : s2.vars v = some ⟨that.rows, that.cols, some (that.rows * that.cols), some s.next, false⟩ := upd_self _ _ _
    rw [bind_ok (obj_ok hv2), bind_ok (memberN_ok rfl)]
    have he : that.rows * that.cols = B.rows * B.cols := by rw [b1, b2]
    rw [if_pos he]
    obtain ⟨s', h1, h2⟩ := copySame_ok (n := that.rows * that.cols) R1 (w := w) hne hv2 (by rw [hs2]; dsimp only; rw [upd_ne _ _ hvw]; exact ht)
      (upd_self _ _ _) (by rw [upd_ne _ _ hvw]; exact hw) rfl he
    rw [upd_upd] at h2
    exact ⟨s', h1, h2⟩

theorem ctorCopy_ok (R : Rel base s e) {v w : Nat} {B : MatVal α} (hv : e v = none) (hw : e w = some B) :
    ∃ s', ctorCopy false v w s = .ok ((), s') ∧ Rel base s' (upd e v (some B)) := by
  obtain ⟨that, ht, -⟩ := R.get hw
  have hvw : w ≠ v := by
    rintro rfl
    rw [hv] at hw
    cases hw
  unfold ctorCopy
  rw [bind_ok (fresh_ok (R.free hv)), bind_ok (obj_ok ht)]
  obtain ⟨s1, h1, R1⟩ := allocMat_ok R hv that.rows that.cols none
  rw [bind_ok h1]
  obtain ⟨s2, h2, R2⟩ := assign_ok R1 (v := v) (w := w) (Ne.symm hvw) (upd_self _ _ _) (by rw [upd_ne _ _ hvw]; exact hw)
  rw [upd_upd] at R2
  exact ⟨s2, h2, R2⟩

theorem get_eq (R : Rel base s e) {v : Nat} {A : MatVal α} (hv : e v = some A) (i j : Int) :
    MatrixMem.get v i j s = if A.inRange i j then
      match A.cell i.toNat j.toNat with
      | some x => .ok (x, s)
      | none => .error .uninitialised
    else .error .exception := by
  obtain ⟨m, hm, a1, a2, -, -, p, b, hp, hb, hs, hc⟩ := R.get hv
  unfold MatrixMem.get
  rw [bind_ok (obj_ok hm)]
  by_cases h : A.inRange i j
  · obtain ⟨h1, h2, h3, h4⟩ := h
    have hi : i.toNat < A.rows := by omega
    have hj : j.toNat < A.cols := by omega
    rw [if_pos ⟨h1, h2, h3, h4⟩, bind_ok (b := j.toNat * A.rows + i.toNat) (s' := s)]
    · unfold load
      rw [hp, bind_ok (block_ok hb)]
      dsimp only
      rw [if_pos (by rw [hs]; exact idx_lt hi hj), hc _ hi _ hj]
      cases A.cell i.toNat j.toNat <;> rfl
    · unfold element
      rw [if_pos ⟨h1, by rw [a1]; exact h2, h3, by rw [a2]; exact h4⟩, a1]
  · rw [if_neg h, bind_err]
    unfold element
    rw [if_neg]
    rw [a1, a2]
    exact h

theorem put_eq (R : Rel base s e) {v : Nat} {A : MatVal α} (hv : e v = some A) (i j : Int) (x : α) :
    if A.inRange i j then
      ∃ s', MatrixMem.put v i j x s = .ok ((), s') ∧
        Rel base s' (upd e v (some { A with cell := fun a b => if a = i.toNat ∧ b = j.toNat then some x else A.cell a b }))
    else MatrixMem.put v i j x s = .error .exception := by
  obtain ⟨m, hm, a1, a2, a3, a4, p, b, hp, hb, hs, hc⟩ := R.get hv
  unfold MatrixMem.put
  rw [bind_ok (obj_ok hm)]
  by_cases h : A.inRange i j
  · obtain ⟨h1, h2, h3, h4⟩ := h
    have hi : i.toNat < A.rows := by omega
    have hj : j.toNat < A.cols := by omega
    rw [if_pos ⟨h1, h2, h3, h4⟩, bind_ok (b := j.toNat * A.rows + i.toNat) (s' := s)]
    · unfold store
      rw [hp, bind_ok (block_ok hb)]
      dsimp only
      rw [if_pos (by rw [hs]; exact idx_lt hi hj)]
      refine ⟨_, rfl, ?_⟩
      have hu : s.vars = upd s.vars v (some m) := by
        funext w
        unfold upd
        split
        · rename_i h; rw [h, hm]
        · rfl
      rw [hu]
      refine R.write hm hp hp ⟨a1, a2, a3, a4⟩ hs fun a ha c hcc => ?_
      change (if c * A.rows + a = j.toNat * A.rows + i.toNat then some x else b.cell (c * A.rows + a)) =
        (if a = i.toNat ∧ c = j.toNat then some x else A.cell a c)
      by_cases hk : c * A.rows + a = j.toNat * A.rows + i.toNat
      · obtain ⟨e1, e2⟩ := idx_inj ha hi hk
        rw [if_pos hk, if_pos ⟨e1, e2⟩]
      · rw [if_neg hk, if_neg]
        · exact hc a ha c hcc
        · rintro ⟨rfl, rfl⟩
          exact hk rfl
    · unfold element
      rw [if_pos ⟨h1, by rw [a1]; exact h2, h3, by rw [a2]; exact h4⟩, a1]
  · rw [if_neg h, bind_err]
    unfold element
    rw [if_neg]
    rw [a1, a2]
    exact h

theorem arrayOf_ok (R : Rel base s e) {v : Nat} (hv : e v = none) (im : Img α) :
    ∃ s', arrayOf v im s = .ok ((), s') ∧ Rel base s' (upd e v (some (ofImg im))) := by
  unfold arrayOf
  rw [bind_ok (fresh_ok (R.free hv))]
  refine ⟨_, rfl, R.new hv rfl ⟨rfl, rfl, rfl, rfl⟩ rfl fun i hi j hj => ?_⟩
  have hi' : i < im.rows := hi
  change some _ = some _
  change some (im.at_ ((j * im.rows + i) % im.rows) ((j * im.rows + i) / im.rows)) = _
  rw [Nat.add_comm, Nat.add_mul_mod_self_right, Nat.mod_eq_of_lt hi', Nat.add_mul_div_right _ _ (by omega), Nat.div_eq_of_lt hi', Nat.zero_add]

/-! ## Copying through views -/

theorem load_ok {p k : Nat} {b : Blk α} {x : α} (hb : s.heap p = some b) (hk : k < b.size) (hx : b.cell k = some x) :
    load (some p) k s = .ok (x, s) := by
  unfold load
  rw [bind_ok (block_ok hb)]
  dsimp only
  rw [if_pos hk, hx]

theorem load_uninit {p k : Nat} {b : Blk α} (hb : s.heap p = some b) (hk : k < b.size) (hx : b.cell k = none) :
    load (some p) k s = .error .uninitialised := by
  unfold load
  rw [bind_ok (block_ok hb)]
  dsimp only
  rw [if_pos hk, hx]

theorem store_ok {p k : Nat} {b : Blk α} (x : α) (hb : s.heap p = some b) (hk : k < b.size) :
    store (some p) k x s = .ok ((), { s with heap := upd s.heap p (some ⟨b.size, upd b.cell k (some x)⟩) }) := by
  unfold store
  rw [bind_ok (block_ok hb)]
  dsimp only
  rw [if_pos hk]

theorem copyCells_ok {p q : Nat} (hpq : p ≠ q) {b' : Blk α} : ∀ (cnt lo : Nat) (s : St α) (b : Blk α), s.heap p = some b →
    s.heap q = some b' → lo + cnt ≤ b.size → lo + cnt ≤ b'.size →
    (∀ k, lo ≤ k → k < lo + cnt → (b'.cell k).isSome = true) →
    copyCells (some p) (some q) cnt lo s =
      .ok ((), ⟨s.next, upd s.heap p (some ⟨b.size, fun k => if lo ≤ k ∧ k < lo + cnt then b'.cell k else b.cell k⟩), s.vars⟩)
  | 0, lo, s, b, hp, hq, h1, h2, hf => by
    unfold copyCells
    have : upd s.heap p (some ⟨b.size, fun k => if lo ≤ k ∧ k < lo + 0 then b'.cell k else b.cell k⟩) = s.heap := by
      funext r
      unfold upd
      split
      · rename_i h
        rw [h, hp]
        congr 1
        have : (fun k => if lo ≤ k ∧ k < lo + 0 then b'.cell k else b.cell k) = b.cell := by
          funext k
          rw [if_neg (by omega)]
        rw [this]
      · rfl
    rw [this]
  | cnt + 1, lo, s, b, hp, hq, h1, h2, hf => by
    unfold copyCells
    obtain ⟨x, hx⟩ := Option.isSome_iff_exists.1 (hf lo (le_refl _) (by omega))
    rw [bind_ok (load_ok hq (by omega) hx), bind_ok (store_ok x hp (by omega)),
      copyCells_ok hpq cnt (lo + 1) _ ⟨b.size, upd b.cell lo (some x)⟩ (upd_self _ _ _)
        (by dsimp only; rw [upd_ne _ _ (Ne.symm hpq)]; exact hq) (by dsimp only; omega) (by omega) (fun k hk hk' => hf k (by omega) (by omega))]
    dsimp only
    rw [upd_upd]
    have : (fun k => if lo + 1 ≤ k ∧ k < lo + 1 + cnt then b'.cell k else upd b.cell lo (some x) k) =
        (fun k => if lo ≤ k ∧ k < lo + (cnt + 1) then b'.cell k else b.cell k) := by
      funext k
      by_cases hk : k = lo
      · subst hk
        rw [if_neg (by omega), if_pos (by omega), upd_self, hx]
      · rw [upd_ne _ _ hk]
        by_cases hh : lo ≤ k ∧ k < lo + (cnt + 1)
        · rw [if_pos hh, if_pos (by omega)]
        · rw [if_neg hh, if_neg (by omega)]
    rw [this]

theorem copyCells_uninit {p q : Nat} (hpq : p ≠ q) {b' : Blk α} : ∀ (cnt lo : Nat) (s : St α) (b : Blk α), s.heap p = some b →
    s.heap q = some b' → lo + cnt ≤ b.size → lo + cnt ≤ b'.size →
    (∃ k, lo ≤ k ∧ k < lo + cnt ∧ b'.cell k = none) → copyCells (some p) (some q) cnt lo s = .error .uninitialised
  | 0, lo, s, b, hp, hq, h1, h2, hf => by
    obtain ⟨k, h3, h4, _⟩ := hf
    omega
  | cnt + 1, lo, s, b, hp, hq, h1, h2, hf => by
    unfold copyCells
    cases hx : b'.cell lo with
    | none => rw [bind_err (load_uninit hq (by omega) hx)]
    | some x =>
      rw [bind_ok (load_ok hq (by omega) hx), bind_ok (store_ok x hp (by omega))]
      obtain ⟨k, h3, h4, h5⟩ := hf
      have : k ≠ lo := by rintro rfl; rw [hx] at h5; cases h5
      exact copyCells_uninit hpq cnt (lo + 1) _ ⟨b.size, upd b.cell lo (some x)⟩ (upd_self _ _ _)
        (by dsimp only; rw [upd_ne _ _ (Ne.symm hpq)]; exact hq) (by dsimp only; omega) (by omega) ⟨k, by omega, by omega, h5⟩

/-- Copy of the value of `w` into `v`, both of the same shape. -/
theorem copyPair (R : Rel base s e) {v w : Nat} (hvw : v ≠ w) {m that : Mat} {A B : MatVal α} (hm : s.vars v = some m)
    (ht : s.vars w = some that) (hv : e v = some A) (hw : e w = some B) (hr : A.rows = B.rows) (hc : A.cols = B.cols) :
    if B.Full then
      ∃ s', copyCells m.data that.data (B.rows * B.cols) 0 s = .ok ((), s') ∧ Rel base s' (upd e v (some B))
    else copyCells m.data that.data (B.rows * B.cols) 0 s = .error .uninitialised := by
  obtain ⟨a1, a2, a3, a4, p, b, hp, hb, hs, -⟩ := R.holds v m A hm hv
  obtain ⟨b1, b2, b3, b4, q, b', hq, hb', hs', hcc⟩ := R.holds w that B ht hw
  have hpq : p ≠ q := by
    rintro rfl
    exact hvw (R.inj v w m that p hm ht hp hq)
  have hs1 : b.size = B.rows * B.cols := by rw [hs, hr, hc]
  rw [hp, hq]
  by_cases hf : B.Full
  · rw [if_pos hf]
    have hall : ∀ k, 0 ≤ k → k < 0 + B.rows * B.cols → (b'.cell k).isSome = true := by
      intro k _ hk
      rw [Nat.zero_add] at hk
      have hrp : 0 < B.rows := Nat.pos_of_ne_zero (by rintro h; rw [h, Nat.zero_mul] at hk; omega)
      have h1 : k % B.rows < B.rows := Nat.mod_lt _ hrp
      have h2 : k / B.rows < B.cols := by rw [Nat.div_lt_iff_lt_mul hrp, Nat.mul_comm]; exact hk
      have h3 := hcc _ h1 _ h2
      rw [Nat.mul_comm, Nat.div_add_mod] at h3
      rw [h3]
      exact hf _ h1 _ h2
    rw [copyCells_ok hpq _ 0 s b hb hb' (by omega) (by omega) hall]
    refine ⟨_, rfl, ?_⟩
    have hu : s.vars = upd s.vars v (some m) := by
      funext w
      unfold upd
      split
      · rename_i h; rw [h, hm]
      · rfl
    rw [hu]
    refine R.write hm hp hp ⟨a1.trans hr, a2.trans hc, by rw [a3, hr, hc], a4⟩ hs1 fun i hi j hj => ?_
    dsimp only
    rw [if_pos ⟨Nat.zero_le _, by rw [Nat.zero_add]; exact idx_lt hi hj⟩]
    exact hcc i hi j hj
  · rw [if_neg hf]
    apply copyCells_uninit hpq _ 0 s b hb hb' (by omega) (by omega)
    unfold MatVal.Full at hf
    push Not at hf
    obtain ⟨i, hi, j, hj, hn⟩ := hf
    refine ⟨j * B.rows + i, Nat.zero_le _, by rw [Nat.zero_add]; exact idx_lt hi hj, ?_⟩
    rw [hcc i hi j hj]
    simpa using hn

/-- The refinement. -/
theorem run_refines [Zero α] {β : Type} (P : Prog α β) : ∀ (s : St α) (e : MatEnv α), Rel base s e →
    match eval P e with
    | .ok (b, e') => ∃ s', run false P s = .ok (b, s') ∧ Rel base s' e'
    | .error w => ∀ f, w.fault = some f → run false P s = .error f := by
  induction P with
  | ret b => intro s e R; exact ⟨s, rfl, R⟩
  | abort =>
    intro s e R f hf
    cases hf
    rfl
  | ctorDefault v k ih =>
    intro s e R
    unfold eval run born
    cases hv : e v with
    | some _ => intro f hf; cases hf
    | none =>
      obtain ⟨s1, h1, R1⟩ := allocMat_ok R hv 0 0 (none : Option α)
      have : MatrixMem.ctorDefault false v s = .ok ((), s1) := by
        unfold MatrixMem.ctorDefault
        rw [bind_ok (fresh_ok (R.free hv))]
        exact h1
      rw [bind_ok this]
      exact ih s1 _ R1
  | ctorSized v r c k ih =>
    intro s e R
    unfold eval run born
    cases hv : e v with
    | some _ => intro f hf; cases hf
    | none =>
      obtain ⟨s1, h1, R1⟩ := allocMat_ok R hv (max 0 r).toNat (max 0 c).toNat (some (0 : α))
      have : MatrixMem.ctorSized false v r c s = .ok ((), s1) := by
        unfold MatrixMem.ctorSized
        rw [bind_ok (fresh_ok (R.free hv))]
        exact h1
      rw [bind_ok this]
      have e1 : (max 0 r).toNat = r.toNat := by omega
      have e2 : (max 0 c).toNat = c.toNat := by omega
      rw [e1, e2] at R1
      exact ih s1 _ R1
  | ctorCopy v w k ih =>
    intro s e R
    unfold eval run born the
    cases hw : e w with
    | none => intro f hf; cases hf
    | some B =>
      dsimp only [bind, Except.bind]
      cases hv : e v with
      | some _ => intro f hf; cases hf
      | none =>
        obtain ⟨s1, h1, R1⟩ := ctorCopy_ok R hv hw
        rw [bind_ok h1]
        exact ih s1 _ R1
  | assign v w k ih =>
    intro s e R
    unfold eval run the
    cases hv : e v with
    | none => intro f hf; cases hf
    | some A =>
      cases hw : e w with
      | none => intro f hf; cases hf
      | some B =>
        dsimp only [bind, Except.bind]
        by_cases hvw : v = w
        · rw [if_pos hvw]
          intro f hf
          cases hf
        · rw [if_neg hvw]
          obtain ⟨s1, h1, R1⟩ := assign_ok R hvw hv hw
          rw [bind_ok h1]
          exact ih s1 _ R1
  | dtor v k ih =>
    intro s e R
    unfold eval run the
    cases hv : e v with
    | none => intro f hf; cases hf
    | some A =>
      obtain ⟨s1, h1, R1⟩ := dtor_ok R hv
      rw [bind_ok h1]
      exact ih s1 _ R1
  | size v k ih =>
    intro s e R
    unfold eval run the
    cases hv : e v with
    | none => intro f hf; cases hf
    | some A =>
      obtain ⟨m, hm, a1, a2, -⟩ := R.get hv
      rw [bind_ok (obj_ok hm), a1, a2]
      exact ih _ _ s e R
  | get v i j k ih =>
    intro s e R
    unfold eval run the
    cases hv : e v with
    | none => intro f hf; cases hf
    | some A =>
      dsimp only [bind, Except.bind]
      have hg := get_eq R hv i j
      by_cases h : A.inRange i j
      · rw [if_pos h] at hg ⊢
        cases hx : A.cell i.toNat j.toNat with
        | none =>
          rw [hx] at hg
          rw [bind_err hg]
          intro f hf
          cases hf
          rfl
        | some x =>
          rw [hx] at hg
          rw [bind_ok hg]
          exact ih x s e R
      · rw [if_neg h] at hg ⊢
        rw [bind_err hg]
        intro f hf
        cases hf
        rfl
  | put v i j x k ih =>
    intro s e R
    unfold eval run the
    cases hv : e v with
    | none => intro f hf; cases hf
    | some A =>
      dsimp only [bind, Except.bind]
      have hg := put_eq R hv i j x
      by_cases h : A.inRange i j
      · rw [if_pos h] at hg ⊢
        obtain ⟨s1, h1, R1⟩ := hg
        rw [bind_ok h1]
        exact ih s1 _ R1
      · rw [if_neg h] at hg ⊢
        rw [bind_err hg]
        intro f hf
        cases hf
        rfl
  | arrayOf v im k ih =>
    intro s e R
    unfold eval run born
    cases hv : e v with
    | some _ => intro f hf; cases hf
    | none =>
      obtain ⟨s1, h1, R1⟩ := arrayOf_ok R hv im
      rw [bind_ok h1]
      exact ih s1 _ R1
  | copyView out v a k ih =>
    intro s e R
    unfold eval run the
    cases hv : e v with
    | none => intro f hf; cases hf
    | some M =>
      cases ha : e a with
      | none => intro f hf; cases hf
      | some A =>
        dsimp only [bind, Except.bind]
        obtain ⟨m, hm, HM⟩ := R.get hv
        obtain ⟨arr, harr, HA⟩ := R.get ha
        obtain ⟨b1, b2, -⟩ := HA
        obtain ⟨-, -, -, -, p, _, hp, -⟩ := HM
        have hcv : MatrixMem.copyView out v a s = (if m.data = none ∨ arr.rows = 0 ∨ arr.cols = 0 then fun s => .ok (false, s)
            else (if out then copyCells arr.data m.data (arr.rows * arr.cols) 0
              else copyCells m.data arr.data (arr.rows * arr.cols) 0).bind fun _ s => .ok (true, s) : Op α Bool) s := by
          unfold MatrixMem.copyView
          rw [bind_ok (obj_ok hm), bind_ok (obj_ok harr)]
        by_cases h0 : A.rows = 0 ∨ A.cols = 0
        · rw [if_pos h0]
          rw [if_pos (by rw [b1, b2]; exact .inr h0)] at hcv
          rw [bind_ok hcv]
          exact ih false s e R
        · rw [if_neg h0]
          rw [if_neg (by rw [b1, b2, hp]; simpa using h0)] at hcv
          by_cases hsz : v ≠ a ∧ M.rows = A.rows ∧ M.cols = A.cols
          · rw [if_pos hsz]
            obtain ⟨hva, hr, hc⟩ := hsz
            rw [b1, b2] at hcv
            cases out with
            | true =>
              simp only [if_true] at hcv ⊢
              have hcp := copyPair R (Ne.symm hva) harr hm ha hv hr.symm hc.symm
              rw [hr, hc] at hcp
              by_cases hf : M.Full
              · rw [if_pos hf] at hcp ⊢
                obtain ⟨s1, h1, R1⟩ := hcp
                rw [bind_ok h1] at hcv
                rw [bind_ok hcv]
                exact ih true s1 _ R1
              · rw [if_neg hf] at hcp ⊢
                rw [bind_err hcp] at hcv
                rw [bind_err hcv]
                intro f hf
                cases hf
                rfl
            | false =>
              simp only [Bool.false_eq_true, if_false] at hcv ⊢
              have hcp := copyPair R hva hm harr hv ha hr hc
              by_cases hf : A.Full
              · rw [if_pos hf] at hcp ⊢
                obtain ⟨s1, h1, R1⟩ := hcp
                rw [bind_ok h1] at hcv
                rw [bind_ok hcv]
                exact ih true s1 _ R1
              · rw [if_neg hf] at hcp ⊢
                rw [bind_err hcp] at hcv
                rw [bind_err hcv]
                intro f hf
                cases hf
                rfl
          · rw [if_neg hsz]
            intro f hf
            cases hf

end EdgeEval.MatrixMem
