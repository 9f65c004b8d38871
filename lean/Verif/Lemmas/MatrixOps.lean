import Verif.Spec.MatrixOps
import Mathlib.Tactic.Ring
import Mathlib.Tactic.Linarith
import Mathlib.Tactic.Push

namespace EdgeEval.MatrixOps

open EdgeEval.Sort (Arr) 
open Spec.MatrixOps

variable {α β γ : Type}

/-- The computation returns normally, with a result satisfying `Q`. -/
def Post (m : Except Fault β) (Q : β → Prop) : Prop := ∃ b, m = .ok b ∧ Q b

theorem Post.bind {m : Except Fault β} {k : β → Except Fault γ} {Q : β → Prop} {R : γ → Prop}
    (h : Post m Q) (hk : ∀ b, Q b → Post (k b) R) : Post (m >>= k) R := by
  obtain ⟨b, rfl, hb⟩ := h
  exact hk b hb

theorem Post.pure {b : β} {Q : β → Prop} (h : Q b) : Post (Except.ok b) Q := ⟨b, rfl, h⟩

theorem Post.mono {m : Except Fault β} {Q R : β → Prop} (h : Post m Q) (hi : ∀ b, Q b → R b) : Post m R := by
  obtain ⟨b, e, hb⟩ := h
  exact ⟨b, e, hi b hb⟩

theorem forUp_post {σ : Type} {body : ℤ → σ → Except Fault σ} (I : ℤ → σ → Prop) (k : Nat) (i0 : ℤ) (s : σ)
    (h0 : I i0 s) (hs : ∀ i s, i0 ≤ i → i < i0 + k → I i s → Post (body i s) (I (i + 1))) :
    Post (forUp body k i0 s) (I (i0 + k)) := by
  induction k generalizing i0 s with
  | zero => simpa [forUp] using Post.pure (Q := I i0) h0
  | succ k ih =>
    simp only [forUp]
    refine (hs i0 s le_rfl (by push_cast; omega) h0).bind fun s' h' => ?_
    have := ih (i0 + 1) s' h' (fun i s h1 h2 h3 => hs i s (by omega) (by push_cast; omega) h3)
    refine this.mono fun b hb => ?_
    have e : i0 + ((k + 1 : Nat) : ℤ) = i0 + 1 + k := by push_cast; ring
    rw [e]; exact hb

/-- A loop from `0` to `n`. -/
theorem forUp_post0 {σ : Type} {body : ℤ → σ → Except Fault σ} (I : ℤ → σ → Prop) {n : ℤ} (hn : 0 ≤ n) (s : σ)
    (h0 : I 0 s) (hs : ∀ i s, 0 ≤ i → i < n → I i s → Post (body i s) (I (i + 1))) :
    Post (forUp body n.toNat 0 s) (I n) := by
  have := forUp_post I n.toNat 0 s h0 (fun i s h1 h2 h3 => hs i s h1 (by omega) h3)
  rwa [show (0 : ℤ) + (n.toNat : ℤ) = n by omega] at this

theorem colLoop_post {σ : Type} {body : ℤ → ℤ → ℤ → σ → Except Fault σ} (I : ℤ → ℤ → σ → Prop) {rows cols : ℤ}
    (hr : 0 ≤ rows) (hc : 0 ≤ cols) (s : σ) (h0 : I 0 0 s)
    (hs : ∀ row col s, 0 ≤ row → row < rows → 0 ≤ col → col < cols → I col row s →
      Post (body row col (col * rows + row) s) (I col (row + 1)))
    (hw : ∀ col s, 0 ≤ col → col < cols → I col rows s → I (col + 1) 0 s) :
    Post (colLoop rows cols body s) (I cols 0) := by
  unfold colLoop
  have := forUp_post0 (body := fun col (st : ℤ × σ) =>
    forUp (fun row (st : ℤ × σ) => do
      let s' ← body row col st.1 st.2
      pure (st.1 + 1, s')) rows.toNat 0 st)
    (fun col st => st.1 = col * rows ∧ I col 0 st.2) hc (0, s) ⟨by simp, h0⟩ (by
      intro col st h1 h2 ⟨h3, h4⟩
      have := forUp_post0 (body := fun row (st : ℤ × σ) => do
          let s' ← body row col st.1 st.2
          pure (st.1 + 1, s'))
        (fun row st => st.1 = col * rows + row ∧ I col row st.2) hr st ⟨by simpa using h3, h4⟩ (by
          intro row st h5 h6 ⟨h7, h8⟩
          rw [h7]
          refine (hs row col st.2 h5 h6 h1 h2 h8).bind fun s' h' => ?_
          exact ⟨_, rfl, by simp only; ring, h'⟩)
      refine this.mono fun b hb => ⟨?_, hw _ _ h1 h2 hb.2⟩
      rw [hb.1]; ring)
  refine this.bind fun b hb => ⟨_, rfl, hb.2⟩

/-! ### Column order -/

theorem idx_nonneg {r i j : ℤ} (hr : 0 ≤ r) (hi : 0 ≤ i) (hj : 0 ≤ j) : 0 ≤ j * r + i := by positivity

theorem idx_lt {r c i j : ℤ} (hi : 0 ≤ i) (hi' : i < r) (hj' : j < c) : j * r + i < c * r := by
  have : (j + 1) * r ≤ c * r := mul_le_mul_of_nonneg_right (by omega) (by omega)
  have e : (j + 1) * r = j * r + r := by ring
  omega

theorem idx_div {r i j : ℤ} (hi : 0 ≤ i) (hi' : i < r) : (j * r + i) / r = j := by
  rw [Int.add_comm, Int.add_mul_ediv_right _ _ (by omega), Int.ediv_eq_zero_of_lt hi hi']; omega

theorem idx_mod {r i j : ℤ} (hi : 0 ≤ i) (hi' : i < r) : (j * r + i) % r = i := by
  rw [Int.add_comm, Int.add_mul_emod_self_right, Int.emod_eq_of_lt hi hi']

theorem idx_inj {r i j i' j' : ℤ} (hi : 0 ≤ i) (hir : i < r) (hi' : 0 ≤ i') (hir' : i' < r) :
    j * r + i = j' * r + i' ↔ i = i' ∧ j = j' := by
  constructor
  · intro h
    refine ⟨?_, ?_⟩
    · have := congrArg (· % r) h
      simpa [idx_mod hi hir, idx_mod hi' hir'] using this
    · have := congrArg (· / r) h
      simpa [idx_div hi hir, idx_div hi' hir'] using this
  · rintro ⟨rfl, rfl⟩; rfl

/-- Every position of a block is that of some row and column. -/
theorem idx_split {r c k : ℤ} (hr : 0 ≤ r) (hk : 0 ≤ k) (hk' : k < c * r) :
    0 ≤ k % r ∧ k % r < r ∧ 0 ≤ k / r ∧ k / r < c ∧ (k / r) * r + k % r = k := by
  have hr' : 0 < r := by
    rcases hr.lt_or_eq with h | h
    · exact h
    · subst h; simp at hk'; omega
  refine ⟨Int.emod_nonneg _ (by omega), Int.emod_lt_of_pos _ hr', Int.ediv_nonneg hk hr, ?_, ?_⟩
  · exact Int.ediv_lt_of_lt_mul hr' hk'
  · rw [Int.mul_comm]; exact Int.mul_ediv_add_emod k r

/-- The matrix with one entry replaced. -/
def upd (f : ℤ → ℤ → α) (i j : ℤ) (x : α) : ℤ → ℤ → α := fun a b => if a = i ∧ b = j then x else f a b

section
variable {d : Arr α} {r c : ℤ} {f : ℤ → ℤ → α}

theorem cols_rd (h : Cols d r c f) {i j : ℤ} (h1 : 0 ≤ i) (h2 : i < r) (h3 : 0 ≤ j) (h4 : j < c) :
    rd d (j * r + i) = .ok (f i j) := by
  unfold rd
  rw [if_pos ⟨idx_nonneg h.r0 h1 h3, by rw [h.size]; exact idx_lt h1 h2 h4⟩, h.entry i j h1 h2 h3 h4]

theorem cols_wr (h : Cols d r c f) {i j : ℤ} (h1 : 0 ≤ i) (h2 : i < r) (h3 : 0 ≤ j) (h4 : j < c) (x : α) :
    Post (wr d (j * r + i) x) fun d' => Cols d' r c (upd f i j x) := by
  unfold wr
  rw [if_pos ⟨idx_nonneg h.r0 h1 h3, by rw [h.size]; exact idx_lt h1 h2 h4⟩]
  refine ⟨_, rfl, h.r0, h.c0, h.size, fun a b h5 h6 h7 h8 => ?_⟩
  simp only [upd, idx_inj h5 h6 h1 h2, h.entry a b h5 h6 h7 h8]

theorem _root_.EdgeEval.Spec.MatrixOps.Cols.congr {f' : ℤ → ℤ → α} (h : Cols d r c f)
    (he : ∀ i j, 0 ≤ i → i < r → 0 ≤ j → j < c → f i j = f' i j) : Cols d r c f' :=
  ⟨h.r0, h.c0, h.size, fun i j h1 h2 h3 h4 => (h.entry i j h1 h2 h3 h4).trans (he i j h1 h2 h3 h4)⟩

/-- The block, position by position. -/
theorem cols_lin (h : Cols d r c f) {k : ℤ} (h1 : 0 ≤ k) (h2 : k < c * r) : d.at_ k = nth r f k := by
  obtain ⟨a, b, e, g, hk⟩ := idx_split h.r0 h1 h2
  have := h.entry _ _ a b e g
  rw [hk] at this
  exact this

theorem cols_of_lin (h0 : 0 ≤ r) (h1 : 0 ≤ c) (hs : d.size = c * r)
    (he : ∀ k, 0 ≤ k → k < c * r → d.at_ k = nth r f k) : Cols d r c f :=
  ⟨h0, h1, hs, fun i j a b e g => by
    rw [he _ (idx_nonneg h0 a e) (idx_lt a b g), nth, idx_mod a b, idx_div a b]⟩

theorem cols_rdk (h : Cols d r c f) {k : ℤ} (h1 : 0 ≤ k) (h2 : k < c * r) : rd d k = .ok (nth r f k) := by
  unfold rd
  rw [if_pos ⟨h1, by rw [h.size]; exact h2⟩, cols_lin h h1 h2]

theorem cols_wrk {v : ℤ → α} (hs : d.size = c * r) (hv : ∀ k, 0 ≤ k → k < c * r → d.at_ k = v k) {k : ℤ}
    (h1 : 0 ≤ k) (h2 : k < c * r) (x : α) :
    Post (wr d k x) fun d' => d'.size = c * r ∧ ∀ l, 0 ≤ l → l < c * r → d'.at_ l = if l = k then x else v l := by
  unfold wr
  rw [if_pos ⟨h1, by rw [hs]; exact h2⟩]
  refine ⟨_, rfl, hs, fun l h3 h4 => ?_⟩
  simp only [hv l h3 h4]

end

section
variable {m : Mx α} {r c : ℤ} {f : ℤ → ℤ → α}

theorem _root_.EdgeEval.Spec.MatrixOps.Is.congr {f' : ℤ → ℤ → α} (h : Is m r c f)
    (he : ∀ i j, 0 ≤ i → i < r → 0 ≤ j → j < c → f i j = f' i j) : Is m r c f' :=
  ⟨h.rows, h.cols, h.data.congr he⟩

theorem is_n (h : Is m r c f) : m.n = c * r := h.data.size

theorem new_is {r c : ℤ} (h0 : 0 ≤ r) (h1 : 0 ≤ c) (g : ℤ → α) : Is (newMx r c g) r c (fun i j => g (j * r + i)) := by
  unfold newMx
  refine ⟨by simp [h0], by simp [h1], h0, h1, ?_, fun i j _ _ _ _ => rfl⟩
  simp [h0, h1, Int.mul_comm]

theorem new_is_const (r c : ℤ) (x : α) : Is (newMx r c fun _ => x) (max 0 r) (max 0 c) (fun _ _ => x) := by
  refine ⟨rfl, rfl, le_max_left _ _, le_max_left _ _, ?_, fun i j _ _ _ _ => rfl⟩
  simp [newMx, Int.mul_comm]

theorem at2_ok (h : Is m r c f) {i j : ℤ} (h1 : 0 ≤ i) (h2 : i < r) (h3 : 0 ≤ j) (h4 : j < c) :
    at2 m i j = .ok (j * r + i) := by
  unfold at2
  rw [h.rows, h.cols, if_pos ⟨h1, h2, h3, h4⟩]

theorem get2_ok (h : Is m r c f) {i j : ℤ} (h1 : 0 ≤ i) (h2 : i < r) (h3 : 0 ≤ j) (h4 : j < c) :
    get2 m i j = .ok (f i j) := by
  unfold get2
  rw [at2_ok h h1 h2 h3 h4]
  exact cols_rd h.data h1 h2 h3 h4

theorem set2_post (h : Is m r c f) {i j : ℤ} (h1 : 0 ≤ i) (h2 : i < r) (h3 : 0 ≤ j) (h4 : j < c) (x : α) :
    Post (set2 m i j x) fun b => Is b r c (upd f i j x) := by
  unfold set2
  rw [at2_ok h h1 h2 h3 h4]
  exact (cols_wr h.data h1 h2 h3 h4 x).bind fun d hd => ⟨_, rfl, h.rows, h.cols, hd⟩

theorem swap2_post (h : Is m r c f) {i j i' j' : ℤ} (h1 : 0 ≤ i) (h2 : i < r) (h3 : 0 ≤ j) (h4 : j < c)
    (h1' : 0 ≤ i') (h2' : i' < r) (h3' : 0 ≤ j') (h4' : j' < c) :
    Post (swap2 m i j i' j') fun b => Is b r c (upd (upd f i j (f i' j')) i' j' (f i j)) := by
  unfold swap2
  rw [get2_ok h h1 h2 h3 h4]
  simp only [bind, Except.bind]
  rw [get2_ok h h1' h2' h3' h4']
  simp only
  exact (set2_post h h1 h2 h3 h4 _).bind fun b hb => set2_post hb h1' h2' h3' h4' _

end

end EdgeEval.MatrixOps
