import Verif.Lemmas.MatrixIndex
import Mathlib.Tactic.FieldSimp

namespace EdgeEval.MatrixOps

open EdgeEval.Sort (Arr)
open Spec.MatrixOps

variable {α β : Type} {m : Mx α} {r c : ℤ} {f : ℤ → ℤ → α}

theorem is_nn (h : Is m r c f) : 0 ≤ c * r := mul_nonneg (is_c0 h) (is_r0 h)

/-! ### Elementwise -/

theorem mapNew_post (u : α → β) (g : ℤ → β) (h : Is m r c f) : Returns (mapNew u g m) r c (fun i j => u (f i j)) := by
  have hr := is_r0 h
  have hc := is_c0 h
  unfold mapNew
  rw [is_n h, h.rows, h.cols]
  have hz := new_is hr hc g
  have := forUp_post0 (body := fun i d => do
      let x ← rd m.data i
      wr d i (u x))
    (fun i d => d.size = c * r ∧ ∀ k, 0 ≤ k → k < c * r → d.at_ k = if k < i then u (nth r f k) else g k) (is_nn h)
    (newMx r c g).data ⟨hz.data.size, fun k h1 h2 => by rw [if_neg (by omega)]; rfl⟩ (by
      rintro i d h1 h2 ⟨h3, h4⟩
      rw [cols_rdk h.data h1 h2]
      refine (cols_wrk h3 h4 h1 h2 _).mono fun d' hd' => ⟨hd'.1, fun k b1 b2 => ?_⟩
      rw [hd'.2 k b1 b2]
      by_cases e : k = i
      · rw [if_pos e, if_pos (by omega), e]
      · rw [if_neg e]
        exact if_congr (by omega) rfl rfl)
  refine this.bind fun d hd => ⟨_, rfl, hz.rows, hz.cols, cols_of_lin hr hc hd.1 fun k h1 h2 => ?_⟩
  rw [hd.2 k h1 h2, if_pos h2]; rfl

theorem mapIn_post (u : α → α) (h : Is m r c f) : Returns (mapIn u m) r c (fun i j => u (f i j)) := by
  have hr := is_r0 h
  have hc := is_c0 h
  unfold mapIn
  rw [is_n h]
  have := forUp_post0 (body := fun i d => do
      let x ← rd d i
      wr d i (u x))
    (fun i d => d.size = c * r ∧ ∀ k, 0 ≤ k → k < c * r → d.at_ k = if k < i then u (nth r f k) else nth r f k) (is_nn h)
    m.data ⟨h.data.size, fun k h1 h2 => by rw [if_neg (by omega)]; exact cols_lin h.data h1 h2⟩ (by
      rintro i d h1 h2 ⟨h3, h4⟩
      unfold rd
      rw [if_pos ⟨h1, by omega⟩, h4 i h1 h2, if_neg (by omega)]
      refine (cols_wrk h3 h4 h1 h2 _).mono fun d' hd' => ⟨hd'.1, fun k b1 b2 => ?_⟩
      rw [hd'.2 k b1 b2]
      by_cases e : k = i
      · rw [if_pos e, if_pos (by omega), e]
      · rw [if_neg e]
        exact if_congr (by omega) rfl rfl)
  refine this.bind fun d hd => ⟨_, rfl, h.rows, h.cols, cols_of_lin hr hc hd.1 fun k h1 h2 => ?_⟩
  rw [hd.2 k h1 h2, if_pos h2]; rfl

theorem fillWith_post (x : α) (h : Is m r c f) : Returns (fillWith m x) r c (fun _ _ => x) := by
  have hr := is_r0 h
  have hc := is_c0 h
  unfold fillWith
  rw [is_n h]
  have := forUp_post0 (body := fun i d => wr d i x)
    (fun i d => d.size = c * r ∧ ∀ k, 0 ≤ k → k < c * r → d.at_ k = if k < i then x else nth r f k) (is_nn h)
    m.data ⟨h.data.size, fun k h1 h2 => by rw [if_neg (by omega)]; exact cols_lin h.data h1 h2⟩ (by
      rintro i d h1 h2 ⟨h3, h4⟩
      refine (cols_wrk h3 h4 h1 h2 _).mono fun d' hd' => ⟨hd'.1, fun k b1 b2 => ?_⟩
      rw [hd'.2 k b1 b2]
      by_cases e : k = i
      · rw [if_pos e, if_pos (by omega)]
      · rw [if_neg e]
        exact if_congr (by omega) rfl rfl)
  refine this.bind fun d hd => ⟨_, rfl, h.rows, h.cols, cols_of_lin hr hc hd.1 fun k h1 h2 => ?_⟩
  rw [hd.2 k h1 h2, if_pos h2]; rfl

theorem zipNew_post (u : α → α → β) (g : ℤ → β) {b : Mx α} {f' : ℤ → ℤ → α} (h : Is m r c f) (hb : Is b r c f') :
    Returns (zipNew u g m b) r c (fun i j => u (f i j) (f' i j)) := by
  have hr := is_r0 h
  have hc := is_c0 h
  unfold zipNew
  rw [h.rows, h.cols, hb.rows, hb.cols, if_neg (by simp), is_n h]
  have hz := new_is hr hc g
  have := forUp_post0 (body := fun i d => do
      let x ← rd m.data i
      let y ← rd b.data i
      wr d i (u x y))
    (fun i d => d.size = c * r ∧ ∀ k, 0 ≤ k → k < c * r → d.at_ k = if k < i then u (nth r f k) (nth r f' k) else g k) (is_nn h)
    (newMx r c g).data ⟨hz.data.size, fun k h1 h2 => by rw [if_neg (by omega)]; rfl⟩ (by
      rintro i d h1 h2 ⟨h3, h4⟩
      rw [cols_rdk h.data h1 h2, cols_rdk hb.data h1 h2]
      refine (cols_wrk h3 h4 h1 h2 _).mono fun d' hd' => ⟨hd'.1, fun k b1 b2 => ?_⟩
      rw [hd'.2 k b1 b2]
      by_cases e : k = i
      · rw [if_pos e, if_pos (by omega), e]
      · rw [if_neg e]
        exact if_congr (by omega) rfl rfl)
  refine this.bind fun d hd => ⟨_, rfl, hz.rows, hz.cols, cols_of_lin hr hc hd.1 fun k h1 h2 => ?_⟩
  rw [hd.2 k h1 h2, if_pos h2]; rfl

theorem zipNew_fails (u : α → α → β) (g : ℤ → β) {b : Mx α} (hne : m.rows ≠ b.rows ∨ m.cols ≠ b.cols) :
    zipNew u g m b = .error .thrown := by
  unfold zipNew; rw [if_pos hne]

/-- The computed assignment: `b` may have more rows than the target. -/
theorem zipIn_post (u : α → α → α) {b : Mx α} {r' : ℤ} {f' : ℤ → ℤ → α} (h : Is m r c f) (hb : Is b r' c f') (hr' : r ≤ r') :
    Returns (zipIn u m b) r c (fun i j => u (f i j) (nth r' f' (j * r + i))) := by
  have hr := is_r0 h
  have hc := is_c0 h
  have hcr : c * r ≤ c * r' := mul_le_mul_of_nonneg_left hr' hc
  unfold zipIn
  rw [h.cols, hb.cols, if_neg (by simp), is_n h]
  have := forUp_post0 (body := fun i d => do
      let x ← rd d i
      let y ← rd b.data i
      wr d i (u x y))
    (fun i d => d.size = c * r ∧ ∀ k, 0 ≤ k → k < c * r → d.at_ k = if k < i then u (nth r f k) (nth r' f' k) else nth r f k) (is_nn h)
    m.data ⟨h.data.size, fun k h1 h2 => by rw [if_neg (by omega)]; exact cols_lin h.data h1 h2⟩ (by
      rintro i d h1 h2 ⟨h3, h4⟩
      rw [cols_rdk hb.data h1 (by omega)]
      unfold rd
      rw [if_pos ⟨h1, by omega⟩, h4 i h1 h2, if_neg (by omega)]
      refine (cols_wrk h3 h4 h1 h2 _).mono fun d' hd' => ⟨hd'.1, fun k b1 b2 => ?_⟩
      rw [hd'.2 k b1 b2]
      by_cases e : k = i
      · rw [if_pos e, if_pos (by omega), e]
      · rw [if_neg e]
        exact if_congr (by omega) rfl rfl)
  refine this.bind fun d hd => ⟨_, rfl, h.rows, rfl, hr, hc, hd.1, fun i j a1 a2 a3 a4 => ?_⟩
  have e1 := idx_nonneg hr a1 a3
  have e2 := idx_lt a1 a2 a4
  simp only
  rw [hd.2 _ e1 e2, if_pos e2]
  simp only [nth]
  rw [idx_mod a1 a2, idx_div a1 a2]

theorem zipIn_fails (u : α → α → α) {b : Mx α} {r' : ℤ} {f' : ℤ → ℤ → α} (h : Is m r c f) (hb : Is b r' c f') (hr' : r' < r)
    (hc' : 0 < c) : zipIn u m b = .error .oob := by
  have hcr : c * r' < c * r := mul_lt_mul_of_pos_left hr' hc'
  have hb0 := is_nn hb
  unfold zipIn
  rw [h.cols, hb.cols, if_neg (by simp), is_n h]
  have := forUp_fails0 (n := c * r) (body := fun i d => do
      let x ← rd d i
      let y ← rd b.data i
      wr d i (u x y)) (fun _ d => d.size = c * r) .oob m.data h.data.size (by
      intro i d h1 h2 h3
      unfold rd wr
      rw [if_pos ⟨h1, by omega⟩]
      simp only [bind, Except.bind]
      by_cases e : i < b.data.size
      · left
        rw [if_pos ⟨h1, e⟩]
        simp only
        rw [if_pos ⟨h1, by omega⟩]
        exact ⟨_, rfl, h3⟩
      · right
        rw [if_neg (by omega)]) (c * r') ⟨hb0, hcr⟩ (by
      intro d hd
      unfold rd wr
      rw [if_pos ⟨hb0, by omega⟩]
      simp only [bind, Except.bind]
      rw [if_neg (by rw [hb.data.size]; omega)])
  exact bind_err this

/-! ### Folds -/

theorem foldFirst_step (op : β → α → β) (x0 : β) (v : ℤ → α) {i : ℤ} (hi : 0 ≤ i) :
    foldFirst op x0 v (i + 1).toNat = op (foldFirst op x0 v i.toNat) (v i) := by
  have e : (i + 1).toNat = i.toNat + 1 := by omega
  rw [e, foldFirst, Int.toNat_of_nonneg hi]

theorem reduce_post (op : α → α → α) (x0 : α) (h : Is m r c f) :
    reduce op x0 m = .ok (foldFirst op x0 (nth r f) (c * r).toNat) := by
  unfold reduce
  rw [is_n h]
  have := forUp_post0 (body := fun i x => do
      let y ← rd m.data i
      pure (op x y)) (fun i x => x = foldFirst op x0 (nth r f) i.toNat) (is_nn h) x0 rfl (by
      intro i x h1 h2 hx
      rw [cols_rdk h.data h1 h2]
      exact ⟨_, rfl, by rw [foldFirst_step _ _ _ h1, hx]⟩)
  obtain ⟨b, hb, rfl⟩ := this
  exact hb

theorem rreduce_post (op : α → α → α) (x0 : α) (h : Is m r c f) :
    Returns (rreduce op x0 m) r 1 (fun i _ => foldFirst op x0 (fun j => f i j) c.toNat) := by
  have hr := is_r0 h
  have hc := is_c0 h
  unfold rreduce
  rw [h.rows, h.cols]
  have hz := new_is hr (show (0 : ℤ) ≤ 1 by omega) (fun _ => x0)
  have := colLoop_post (body := fun row _ index d => do
      let y ← rd m.data index
      let x ← rd d row
      wr d row (op x y))
    (fun col row d => Cols d r 1 (fun i _ => foldFirst op x0 (fun j => f i j) (if i < row then col + 1 else col).toNat)) hr hc
    (newMx r 1 fun _ => x0).data (hz.data.congr fun i j h1 h2 h3 h4 => by rw [if_neg (by omega)]; rfl) (by
      intro row col d h1 h2 h3 h4 hd
      rw [cols_rd h.data h1 h2 h3 h4]
      simp only [bind, Except.bind]
      have e1 := cols_rd hd (i := row) (j := 0) h1 h2 le_rfl (by omega)
      rw [zero_mul, zero_add, if_neg (by omega)] at e1
      rw [e1]
      simp only
      have e2 := cols_wr hd (i := row) (j := 0) h1 h2 le_rfl (by omega) (op (foldFirst op x0 (fun j => f row j) col.toNat) (f row col))
      rw [zero_mul, zero_add] at e2
      refine e2.mono fun d' hd' => hd'.congr fun i j b1 b2 b3 b4 => ?_
      simp only [upd_apply]
      by_cases e : i = row ∧ j = 0
      · rw [if_pos e, if_pos (by omega), foldFirst_step _ _ _ h3, e.1]
      · rw [if_neg e]
        congr 2
        exact if_congr (by omega) rfl rfl)
    (by
      intro col d h1 h2 hd
      exact hd.congr fun i j b1 b2 b3 b4 => by rw [if_pos (by omega), if_neg (by omega)])
  refine this.bind fun d hd => ⟨_, rfl, hz.rows, hz.cols, hd.congr fun i j b1 b2 b3 b4 => by rw [if_neg (by omega)]⟩

theorem creduce_post (op : α → α → α) (x0 : α) (h : Is m r c f) :
    Returns (creduce op x0 m) 1 c (fun _ j => foldFirst op x0 (fun i => f i j) r.toNat) := by
  have hr := is_r0 h
  have hc := is_c0 h
  unfold creduce
  rw [h.rows, h.cols]
  have hz := new_is (show (0 : ℤ) ≤ 1 by omega) hc (fun _ => x0)
  have := colLoop_post (body := fun _ col index d => do
      let y ← rd m.data index
      let x ← rd d col
      wr d col (op x y))
    (fun col row d => Cols d 1 c (fun _ j => foldFirst op x0 (fun i => f i j) (if j < col then r else if j = col then row else 0).toNat)) hr hc
    (newMx 1 c fun _ => x0).data (hz.data.congr fun i j h1 h2 h3 h4 => by rw [if_neg (by omega)]; split_ifs <;> rfl) (by
      intro row col d h1 h2 h3 h4 hd
      rw [cols_rd h.data h1 h2 h3 h4]
      simp only [bind, Except.bind]
      have e1 := cols_rd hd (i := 0) (j := col) le_rfl (by omega) h3 h4
      rw [mul_one, add_zero, if_neg (by omega), if_pos rfl] at e1
      rw [e1]
      simp only
      have e2 := cols_wr hd (i := 0) (j := col) le_rfl (by omega) h3 h4 (op (foldFirst op x0 (fun i => f i col) row.toNat) (f row col))
      rw [mul_one, add_zero] at e2
      refine e2.mono fun d' hd' => hd'.congr fun i j b1 b2 b3 b4 => ?_
      simp only [upd_apply]
      by_cases e : i = 0 ∧ j = col
      · rw [if_pos e, if_neg (by omega), if_pos e.2, foldFirst_step _ _ _ h1, e.2]
      · rw [if_neg e]
        have e3 : j ≠ col := by omega
        rw [if_neg e3, if_neg e3])
    (by
      intro col d h1 h2 hd
      exact hd.congr fun i j b1 b2 b3 b4 => by
        by_cases e : j = col
        · rw [if_neg (by omega), if_pos e, if_pos (by omega)]
        · by_cases e' : j < col
          · rw [if_pos e', if_pos (by omega)]
          · rw [if_neg e', if_neg e, if_neg (by omega)]
            split_ifs <;> rfl)
  refine this.bind fun d hd => ⟨_, rfl, hz.rows, hz.cols, hd.congr fun i j b1 b2 b3 b4 => by rw [if_pos (by omega)]⟩

theorem anyOf_post (test : α → Bool) (h : Is m r c f) :
    Post (anyOf test m) fun b => b = true ↔ ∃ k, 0 ≤ k ∧ k < c * r ∧ test (nth r f k) = true := by
  unfold anyOf
  rw [is_n h]
  refine forUp_post0 (fun i b => b = true ↔ ∃ k, 0 ≤ k ∧ k < i ∧ test (nth r f k) = true) (is_nn h) false ?_ ?_
  · constructor
    · simp
    · rintro ⟨k, a, b, _⟩; omega
  · intro i b h1 h2 hb
    by_cases e : b = true
    · rw [if_pos e]
      refine ⟨_, rfl, ?_⟩
      obtain ⟨k, k1, k2, k3⟩ := hb.mp e
      exact ⟨fun _ => ⟨k, k1, by omega, k3⟩, fun _ => rfl⟩
    · rw [if_neg e, cols_rdk h.data h1 h2]
      refine ⟨_, rfl, ?_⟩
      constructor
      · intro h; exact ⟨i, h1, by omega, h⟩
      · rintro ⟨k, k1, k2, k3⟩
        by_cases e1 : k = i
        · subst e1; exact k3
        · exact absurd (hb.mpr ⟨k, k1, by omega, k3⟩) e

theorem isequal_post (eq : α → α → Bool) {b : Mx α} {r' c' : ℤ} {f' : ℤ → ℤ → α} (h : Is m r c f) (hb : Is b r' c' f') :
    Post (isequal eq m b) fun x => x = true ↔ r = r' ∧ c = c' ∧
      ∀ i j, 0 ≤ i → i < r → 0 ≤ j → j < c → eq (f i j) (f' i j) = true := by
  unfold isequal
  rw [h.rows, h.cols, hb.rows, hb.cols]
  by_cases e1 : r = r'
  · subst e1
    rw [if_neg (by simp)]
    by_cases e2 : c = c'
    · subst e2
      rw [if_neg (by simp), is_n h]
      have := forUp_post0 (body := fun i (same : Bool) => do
          let x ← rd m.data i
          let y ← rd b.data i
          pure (same && eq x y))
        (fun i x => x = true ↔ ∀ k, 0 ≤ k → k < i → eq (nth r f k) (nth r f' k) = true) (is_nn h) true
        (by simp only [true_iff]; intros; omega) (by
          intro i x h1 h2 hx
          rw [cols_rdk h.data h1 h2, cols_rdk hb.data h1 h2]
          refine ⟨_, rfl, ?_⟩
          show (x && eq (nth r f i) (nth r f' i)) = true ↔ _
          rw [Bool.and_eq_true, hx]
          constructor
          · rintro ⟨a1, a2⟩ k k1 k2
            by_cases e : k = i
            · subst e; exact a2
            · exact a1 k k1 (by omega)
          · intro a
            exact ⟨fun k k1 k2 => a k k1 (by omega), a i h1 (by omega)⟩)
      refine this.mono fun x hx => ?_
      rw [hx]
      simp only [true_and]
      constructor
      · intro a i j i1 i2 i3 i4
        have := a (j * r + i) (idx_nonneg (is_r0 h) i1 i3) (idx_lt i1 i2 i4)
        simpa [nth, idx_mod i1 i2, idx_div i1 i2] using this
      · intro a k k1 k2
        obtain ⟨a1, a2, a3, a4, a5⟩ := idx_split (is_r0 h) k1 k2
        exact a _ _ a1 a2 a3 a4
    · rw [if_pos e2]
      exact ⟨_, rfl, by simp [e2]⟩
  · rw [if_pos e1]
    exact ⟨_, rfl, by simp [e1]⟩

/-! ### Extremes -/

/-- `x` is the entry of `v` at `i`, it is as good as all of the first `n` and strictly better than those before `i`. -/
def First (lt : α → α → Bool) (v : ℤ → α) (n : ℤ) (x : α) (i : ℤ) : Prop :=
  0 ≤ i ∧ i < n ∧ x = v i ∧ (∀ k, 0 ≤ k → k < n → lt (v k) x = false) ∧ ∀ k, 0 ≤ k → k < i → lt x (v k) = true

theorem _root_.EdgeEval.Spec.MatrixOps.Strict.asymm {lt : α → α → Bool} (hs : Strict lt) {x y : α} (h : lt x y = true) : lt y x = false := by
  by_contra h'
  have := hs.trans x y x h (by simpa using h')
  rw [hs.irrefl] at this
  exact absurd this (by simp)

theorem first_step {lt : α → α → Bool} (hs : Strict lt) {v : ℤ → α} {n : ℤ} {x : α} {i : ℤ} (h : First lt v n x i) :
    if lt (v n) x then First lt v (n + 1) (v n) n else First lt v (n + 1) x i := by
  obtain ⟨a1, a2, a3, a4, a5⟩ := h
  split_ifs with hl
  · refine ⟨by omega, by omega, rfl, fun k k1 k2 => ?_, fun k k1 k2 => ?_⟩
    · by_cases e : k = n
      · rw [e]; exact hs.irrefl _
      · exact hs.weak _ x _ (a4 k k1 (by omega)) (hs.asymm hl)
    · by_contra h'
      have h2 := hs.weak (v n) (v k) x (by simpa using h') (a4 k k1 k2)
      rw [h2] at hl; exact absurd hl (by simp)
  · refine ⟨a1, by omega, a3, fun k k1 k2 => ?_, a5⟩
    by_cases e : k = n
    · rw [e]; simpa using hl
    · exact a4 k k1 (by omega)

theorem first_one {lt : α → α → Bool} (hs : Strict lt) (v : ℤ → α) : First lt v 1 (v 0) 0 :=
  ⟨le_rfl, by omega, rfl, fun k k1 k2 => by rw [show k = 0 by omega]; exact hs.irrefl _, by intros; omega⟩

theorem minIdx_post {lt : α → α → Bool} (hs : Strict lt) (h : Is m r c f) (hne : c * r ≠ 0) :
    Post (minIdx lt m) fun p => First lt (nth r f) (c * r) p.1 p.2 := by
  have hn := is_nn h
  unfold minIdx
  rw [is_n h, if_neg hne, cols_rdk h.data le_rfl (by omega)]
  simp only [bind, Except.bind]
  have := forUp_post (body := fun i (st : α × ℤ) => do
      let y ← rd m.data i
      pure (if lt y st.1 then (y, i) else st))
    (fun i st => First lt (nth r f) i st.1 st.2) (c * r - 1).toNat 1 (nth r f 0, 0) (first_one hs _) (by
      intro i st h1 h2 hst
      rw [cols_rdk h.data (by omega) (by omega)]
      refine ⟨_, rfl, ?_⟩
      have := first_step hs hst
      split_ifs at this ⊢ <;> exact this)
  rwa [show (1 : ℤ) + ((c * r - 1).toNat : ℤ) = c * r by omega] at this

theorem minOf_eq_minIdx (lt : α → α → Bool) (h : Is m r c f) (hne : c * r ≠ 0) :
    ∀ p, minIdx lt m = .ok p → minOf lt m = .ok p.1 := by
  have hn := is_nn h
  have key : ∀ (k : ℕ) (i0 : ℤ) (x : α) (j : ℤ), forUp (fun i x => do
        let y ← rd m.data i
        pure (best lt x y)) k i0 x = (forUp (fun i (st : α × ℤ) => do
        let y ← rd m.data i
        pure (if lt y st.1 then (y, i) else st)) k i0 (x, j)).map Prod.fst := by
    intro k
    induction k with
    | zero => intros; rfl
    | succ k ih =>
      intro i0 x j
      simp only [forUp]
      cases hrd : rd m.data i0 with
      | error e => rfl
      | ok y =>
        simp only [bind, Except.bind, pure, Except.pure] at ih ⊢
        unfold best
        by_cases hl : lt y x
        · simp only [hl, if_true]; exact ih _ _ _
        · simp only [hl]; exact ih _ _ _
  intro p hp
  unfold minOf
  unfold minIdx at hp
  rw [is_n h, if_neg hne, cols_rdk h.data le_rfl (by omega)] at hp ⊢
  simp only [bind, Except.bind] at hp ⊢
  have := key (c * r - 1).toNat 1 (nth r f 0) 0
  simp only [bind, Except.bind] at this
  rw [this, hp]
  rfl

theorem firstRow_post {d : Arr α} (h : Is m r c f) (hr1 : 0 < r) (hd : d.size = c) :
    Post (firstRow m d) fun d' => Cols d' 1 c (fun _ j => f 0 j) := by
  unfold firstRow
  rw [h.cols]
  have := forUp_post0 (body := fun col d => do
      let x ← get2 m 0 col
      wr d col x) (fun t d => Cols d 1 c (fun _ j => if j < t then f 0 j else d.at_ j)) (is_c0 h) d
    ⟨by omega, is_c0 h, by omega, fun i j h1 h2 h3 h4 => by rw [if_neg (by omega)]; congr 1; omega⟩ (by
      intro t d h1 h2 hd
      rw [get2_ok h le_rfl hr1 h1 h2]
      simp only [bind, Except.bind]
      unfold wr
      rw [if_pos ⟨h1, by rw [hd.size]; omega⟩]
      refine ⟨_, rfl, hd.r0, hd.c0, hd.size, fun i j a1 a2 a3 a4 => ?_⟩
      have e1 : j * 1 + i = j := by omega
      simp only [e1]
      by_cases e : j = t
      · rw [if_pos e, if_pos (by omega), e]
      · rw [if_neg e]
        have := hd.entry i j a1 a2 a3 a4
        rw [e1] at this
        by_cases e' : j < t
        · rw [if_pos (by omega), this, if_pos e']
        · rw [if_neg (by omega)])
  exact this.mono fun d' hd' => hd'.congr fun i j h1 h2 h3 h4 => by rw [if_pos h4]

theorem rminIdx_post {lt : α → α → Bool} (hs : Strict lt) (g : ℤ → α) (h : Is m r c f) (hne : c * r ≠ 0) :
    Post (rminIdx lt g m) fun p => ∃ (x : ℤ → α) (e : ℤ → ℤ), Is p.1 r 1 (fun i _ => x i) ∧ Is p.2 r 1 (fun i _ => (e i : ℚ)) ∧
      ∀ i, 0 ≤ i → i < r → First lt (fun j => f i j) c (x i) (e i) := by
  have hr := is_r0 h
  have hc := is_c0 h
  have hc1 : 0 < c := by
    rcases hc.lt_or_eq with h | h
    · exact h
    · subst h; simp at hne
  have hle : r ≤ c * r := by
    have := mul_le_mul_of_nonneg_right (show 1 ≤ c by omega) hr
    simpa using this
  unfold rminIdx
  rw [is_n h, if_neg hne, h.rows, h.cols]
  have hz := new_is hr (show (0 : ℤ) ≤ 1 by omega) g
  have hy := new_is hr (show (0 : ℤ) ≤ 1 by omega) fun _ => (0 : ℚ)
  refine (memcpy_post (dst := (newMx r 1 g).data) (p := 0) (src := m.data) (q := 0) hr (fun _ => ?_)).bind fun d hd => ?_
  · rw [hz.data.size, h.data.size]; omega
  have hd0 : Cols d r 1 (fun i _ => f i 0) := by
    refine ⟨hr, by omega, by rw [hd.1, hz.data.size], fun i j h1 h2 h3 h4 => ?_⟩
    have : j = 0 := by omega
    subst this
    rw [hd.2, if_pos (by omega), ← h.data.entry i 0 h1 h2 le_rfl hc1]
    congr 1; ring
  have key := colLoop_post (body := fun row col index st => idxStep lt m row col index st)
    (fun col row st => ∃ (x : ℤ → α) (e : ℤ → ℤ), Cols st.1 r 1 (fun i _ => x i) ∧ Cols st.2 r 1 (fun i _ => (e i : ℚ)) ∧
      ∀ i, 0 ≤ i → i < r → First lt (fun j => f i j) (max 1 (if i < row then col + 1 else col)) (x i) (e i)) hr hc
    (d, (newMx r 1 fun _ => (0 : ℚ)).data)
    ⟨fun i => f i 0, fun _ => 0, hd0, hy.data.congr fun i j _ _ _ _ => by simp, fun i h1 h2 => by
      rw [if_neg (by omega)]; exact first_one hs fun j => f i j⟩ (by
      rintro row col ⟨d, e⟩ h1 h2 h3 h4 ⟨x, ix, i1, i2, i3⟩
      unfold idxStep
      rw [cols_rd h.data h1 h2 h3 h4]
      simp only [bind, Except.bind] at *
      have e1 := cols_rd i1 (i := row) (j := 0) h1 h2 le_rfl (by omega)
      rw [zero_mul, zero_add] at e1
      rw [e1]
      simp only
      have hF := i3 row h1 h2
      rw [if_neg (by omega)] at hF
      by_cases hl : lt (f row col) (x row)
      · have hcol : 0 < col := by
          by_contra h'
          have hcol0 : col = 0 := by omega
          subst hcol0
          have := hF.2.2.2.1 0 le_rfl (by omega)
          simp only at this
          rw [this] at hl; exact absurd hl (by simp)
        rw [show max 1 col = col by omega] at hF
        have hst := first_step hs hF
        rw [if_pos hl] at hst
        rw [if_pos hl]
        have e2 := cols_wr i1 (i := row) (j := 0) h1 h2 le_rfl (by omega) (f row col)
        have e3 := cols_wr i2 (i := row) (j := 0) h1 h2 le_rfl (by omega) (col : ℚ)
        rw [zero_mul, zero_add] at e2 e3
        refine e2.bind fun d' hd' => e3.bind fun e' he' => ?_
        refine ⟨_, rfl, fun i => if i = row then f row col else x i, fun i => if i = row then col else ix i, ?_, ?_, ?_⟩
        · refine hd'.congr fun i j b1 b2 b3 b4 => ?_
          have : j = 0 := by omega
          simp [upd_apply, this]
        · refine he'.congr fun i j b1 b2 b3 b4 => ?_
          have : j = 0 := by omega
          simp only [upd_apply, this, and_true]
          split_ifs <;> rfl
        · intro i b1 b2
          simp only
          by_cases e : i = row
          · rw [if_pos e, if_pos e, if_pos (by omega), show max 1 (col + 1) = col + 1 by omega, e]
            exact hst
          · rw [if_neg e, if_neg e]
            have := i3 i b1 b2
            rwa [show (if i < row + 1 then col + 1 else col) = (if i < row then col + 1 else col) from if_congr (by omega) rfl rfl]
      · rw [if_neg hl]
        refine ⟨_, rfl, x, ix, i1, i2, fun i b1 b2 => ?_⟩
        by_cases e : i = row
        · rw [if_pos (by omega), e]
          by_cases hcol : col = 0
          · subst hcol
            simpa using hF
          · rw [show max 1 col = col by omega] at hF
            have hst := first_step hs hF
            rw [if_neg hl] at hst
            rw [show max 1 (col + 1) = col + 1 by omega]
            exact hst
        · have := i3 i b1 b2
          rwa [show (if i < row + 1 then col + 1 else col) = (if i < row then col + 1 else col) from if_congr (by omega) rfl rfl])
    (by
      rintro col st h1 h2 ⟨x, ix, i1, i2, i3⟩
      refine ⟨x, ix, i1, i2, fun i b1 b2 => ?_⟩
      have := i3 i b1 b2
      rw [if_pos b2] at this
      rwa [if_neg (by omega)])
  refine Post.bind key ?_
  rintro ⟨d', e'⟩ ⟨x, ix, i1, i2, i3⟩
  refine ⟨_, rfl, x, ix, ⟨hz.rows, hz.cols, i1⟩, ⟨hy.rows, hy.cols, i2⟩, fun i b1 b2 => ?_⟩
  have := i3 i b1 b2
  rwa [if_neg (by omega), show max 1 c = c by omega] at this

theorem rminOf_post {lt : α → α → Bool} (hs : Strict lt) (g : ℤ → α) (h : Is m r c f) (hne : c * r ≠ 0) :
    Post (rminOf lt g m) fun p => ∃ (x : ℤ → α) (e : ℤ → ℤ), Is p r 1 (fun i _ => x i) ∧
      ∀ i, 0 ≤ i → i < r → First lt (fun j => f i j) c (x i) (e i) := by
  have hr := is_r0 h
  have hc := is_c0 h
  have hc1 : 0 < c := by
    rcases hc.lt_or_eq with h | h
    · exact h
    · subst h; simp at hne
  have hle : r ≤ c * r := by
    have := mul_le_mul_of_nonneg_right (show 1 ≤ c by omega) hr
    simpa using this
  unfold rminOf
  rw [is_n h, if_neg hne, h.rows, h.cols]
  have hz := new_is hr (show (0 : ℤ) ≤ 1 by omega) g
  refine (memcpy_post (dst := (newMx r 1 g).data) (p := 0) (src := m.data) (q := 0) hr (fun _ => ?_)).bind fun d hd => ?_
  · rw [hz.data.size, h.data.size]; omega
  have hd0 : Cols d r 1 (fun i _ => f i 0) := by
    refine ⟨hr, by omega, by rw [hd.1, hz.data.size], fun i j h1 h2 h3 h4 => ?_⟩
    have : j = 0 := by omega
    subst this
    rw [hd.2, if_pos (by omega), ← h.data.entry i 0 h1 h2 le_rfl hc1]
    congr 1; ring
  have key := colLoop_post (body := fun row _ index d => do
      let y ← rd m.data index
      let x ← rd d row
      wr d row (best lt x y))
    (fun col row st => ∃ (x : ℤ → α) (e : ℤ → ℤ), Cols st r 1 (fun i _ => x i) ∧
      ∀ i, 0 ≤ i → i < r → First lt (fun j => f i j) (max 1 (if i < row then col + 1 else col)) (x i) (e i)) hr hc
    d
    ⟨fun i => f i 0, fun _ => 0, hd0, fun i h1 h2 => by
      rw [if_neg (by omega)]; exact first_one hs fun j => f i j⟩ (by
      rintro row col d h1 h2 h3 h4 ⟨x, ix, i1, i3⟩
      rw [cols_rd h.data h1 h2 h3 h4]
      simp only [bind, Except.bind] at *
      have e1 := cols_rd i1 (i := row) (j := 0) h1 h2 le_rfl (by omega)
      rw [zero_mul, zero_add] at e1
      rw [e1]
      simp only
      have hF := i3 row h1 h2
      rw [if_neg (by omega)] at hF
      have e2 := cols_wr i1 (i := row) (j := 0) h1 h2 le_rfl (by omega) (best lt (x row) (f row col))
      rw [zero_mul, zero_add] at e2
      refine e2.mono fun d' hd' => ⟨fun i => if i = row then best lt (x row) (f row col) else x i,
        fun i => if i = row then (if lt (f row col) (x row) then col else ix row) else ix i, ?_, ?_⟩
      · refine hd'.congr fun i j b1 b2 b3 b4 => ?_
        have : j = 0 := by omega
        simp [upd_apply, this]
      · intro i b1 b2
        simp only
        by_cases e : i = row
        · rw [if_pos e, if_pos e, if_pos (by omega), show max 1 (col + 1) = col + 1 by omega, e]
          unfold best
          by_cases hl : lt (f row col) (x row)
          · have hcol : 0 < col := by
              by_contra h'
              have hcol0 : col = 0 := by omega
              subst hcol0
              have := hF.2.2.2.1 0 le_rfl (by omega)
              simp only at this
              rw [this] at hl; exact absurd hl (by simp)
            rw [show max 1 col = col by omega] at hF
            have hst := first_step hs hF
            rw [if_pos hl] at hst
            rw [if_pos hl, if_pos hl]
            exact hst
          · rw [if_neg hl, if_neg hl]
            by_cases hcol : col = 0
            · subst hcol
              simpa using hF
            · rw [show max 1 col = col by omega] at hF
              have hst := first_step hs hF
              rwa [if_neg hl] at hst
        · rw [if_neg e, if_neg e]
          have := i3 i b1 b2
          rwa [show (if i < row + 1 then col + 1 else col) = (if i < row then col + 1 else col) from if_congr (by omega) rfl rfl])
    (by
      rintro col st h1 h2 ⟨x, ix, i1, i3⟩
      refine ⟨x, ix, i1, fun i b1 b2 => ?_⟩
      have := i3 i b1 b2
      rw [if_pos b2] at this
      rwa [if_neg (by omega)])
  refine Post.bind key ?_
  rintro d' ⟨x, ix, i1, i3⟩
  refine ⟨_, rfl, x, ix, ⟨hz.rows, hz.cols, i1⟩, fun i b1 b2 => ?_⟩
  have := i3 i b1 b2
  rwa [if_neg (by omega), show max 1 c = c by omega] at this

end EdgeEval.MatrixOps
