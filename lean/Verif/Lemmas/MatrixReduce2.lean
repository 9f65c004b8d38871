import Verif.Lemmas.MatrixReduce

namespace EdgeEval.MatrixOps

open EdgeEval.Sort (Arr)
open Spec.MatrixOps

variable {α β : Type} {m : Mx α} {r c : ℤ} {f : ℤ → ℤ → α}

theorem pos_of_ne (h : Is m r c f) (hne : c * r ≠ 0) : 0 < r ∧ 0 < c := by
  have hr := is_r0 h
  have hc := is_c0 h
  constructor
  · rcases hr.lt_or_eq with h | h
    · exact h
    · subst h; simp at hne
  · rcases hc.lt_or_eq with h | h
    · exact h
    · subst h; simp at hne

theorem cminOf_post {lt : α → α → Bool} (hs : Strict lt) (g : ℤ → α) (h : Is m r c f) (hne : c * r ≠ 0) :
    Post (cminOf lt g m) fun p => ∃ (x : ℤ → α) (e : ℤ → ℤ), Is p 1 c (fun _ j => x j) ∧
      ∀ j, 0 ≤ j → j < c → First lt (fun i => f i j) r (x j) (e j) := by
  obtain ⟨hr, hc⟩ := pos_of_ne h hne
  unfold cminOf
  rw [is_n h, if_neg hne, h.rows, h.cols]
  have hz := new_is (show (0 : ℤ) ≤ 1 by omega) hc.le g
  refine (firstRow_post (d := (newMx 1 c g).data) h hr (by rw [hz.data.size, mul_one])).bind fun d hd => ?_
  have key := colLoop_post (body := fun _ col index d => do
      let y ← rd m.data index
      let x ← rd d col
      wr d col (best lt x y))
    (fun col row st => ∃ (x : ℤ → α) (e : ℤ → ℤ), Cols st 1 c (fun _ j => x j) ∧
      ∀ j, 0 ≤ j → j < c → First lt (fun i => f i j) (if j < col then r else if j = col then max 1 row else 1) (x j) (e j)) hr.le hc.le
    d
    ⟨fun j => f 0 j, fun _ => 0, hd, fun j h1 h2 => by
      have e : (if j < 0 then r else if j = 0 then max 1 0 else 1) = 1 := by rw [if_neg (by omega)]; simp
      rw [e]; exact first_one hs fun i => f i j⟩ (by
      rintro row col d h1 h2 h3 h4 ⟨x, ix, i1, i3⟩
      rw [cols_rd h.data h1 h2 h3 h4]
      simp only [bind, Except.bind] at *
      have e1 := cols_rd i1 (i := 0) (j := col) le_rfl (by omega) h3 h4
      rw [mul_one, add_zero] at e1
      rw [e1]
      simp only
      have hF := i3 col h3 h4
      rw [if_neg (by omega), if_pos rfl] at hF
      have e2 := cols_wr i1 (i := 0) (j := col) le_rfl (by omega) h3 h4 (best lt (x col) (f row col))
      rw [mul_one, add_zero] at e2
      refine e2.mono fun d' hd' => ⟨fun j => if j = col then best lt (x col) (f row col) else x j,
        fun j => if j = col then (if lt (f row col) (x col) then row else ix col) else ix j, ?_, ?_⟩
      · refine hd'.congr fun i j b1 b2 b3 b4 => ?_
        have : i = 0 := by omega
        simp [upd_apply, this]
      · intro j b1 b2
        simp only
        by_cases e : j = col
        · rw [if_pos e, if_pos e, if_neg (by omega), if_pos e, show max 1 (row + 1) = row + 1 by omega, e]
          unfold best
          by_cases hl : lt (f row col) (x col)
          · have hrow : 0 < row := by
              by_contra h'
              have hrow0 : row = 0 := by omega
              subst hrow0
              have := hF.2.2.2.1 0 le_rfl (by omega)
              simp only at this
              rw [this] at hl; exact absurd hl (by simp)
            rw [show max 1 row = row by omega] at hF
            have hst := first_step hs hF
            rw [if_pos hl] at hst
            rw [if_pos hl, if_pos hl]
            exact hst
          · rw [if_neg hl, if_neg hl]
            by_cases hrow : row = 0
            · subst hrow
              simpa using hF
            · rw [show max 1 row = row by omega] at hF
              have hst := first_step hs hF
              rwa [if_neg hl] at hst
        · rw [if_neg e, if_neg e]
          have := i3 j b1 b2
          rwa [if_neg e] at this ⊢)
    (by
      rintro col st h1 h2 ⟨x, ix, i1, i3⟩
      refine ⟨x, ix, i1, fun j b1 b2 => ?_⟩
      have := i3 j b1 b2
      have e : (if j < col + 1 then r else if j = col + 1 then max 1 0 else 1) = (if j < col then r else if j = col then max 1 r else 1) := by
        by_cases e1 : j < col
        · rw [if_pos e1, if_pos (by omega)]
        · by_cases e2 : j = col
          · rw [if_pos (by omega), if_neg e1, if_pos e2]; omega
          · rw [if_neg (by omega), if_neg e1, if_neg e2]; simp
      rwa [e])
  refine Post.bind key ?_
  rintro d' ⟨x, ix, i1, i3⟩
  refine ⟨_, rfl, x, ix, ⟨hz.rows, hz.cols, i1⟩, fun i b1 b2 => ?_⟩
  have := i3 i b1 b2
  rwa [if_pos b2] at this

/-- `cmin (indices)` on a matrix with more rows than columns leaves the result's block. -/
theorem cminIdx_fails (lt : α → α → Bool) (g : ℤ → α) (h : Is m r c f) (hc : 0 < c) (hrc : c < r) :
    cminIdx lt g m = .error .oob := by
  have hr : 0 < r := by omega
  have hne : c * r ≠ 0 := by positivity
  unfold cminIdx
  rw [is_n h, if_neg hne, h.rows, h.cols]
  have hz := new_is (show (0 : ℤ) ≤ 1 by omega) hc.le g
  obtain ⟨d, hd, hD⟩ := firstRow_post (d := (newMx 1 c g).data) h hr (by rw [hz.data.size, mul_one])
  simp only [hd, bind, Except.bind]
  have hy := new_is (show (0 : ℤ) ≤ 1 by omega) hc.le fun _ => (0 : ℚ)
  have hloop : colLoop r c (fun row col index st => idxStep lt m row col index st) (d, (newMx 1 c fun _ => (0 : ℚ)).data) = .error .oob := by
    unfold colLoop
    refine bind_err (forUp_fails (fun col (st : ℤ × (Arr α × Arr ℚ)) => col = 0 → st.1 = 0 ∧ st.2.1.size = c ∧ st.2.2.size = c) .oob c.toNat 0
      (0, (d, (newMx 1 c fun _ => (0 : ℚ)).data)) (fun _ => ⟨rfl, by have := hD.size; simpa using this, by have := hy.data.size; simpa using this⟩) 0 (by intros; omega) ⟨le_rfl, by omega⟩ ?_)
    · intro st hst
      obtain ⟨a1, a2, a3⟩ := hst rfl
      refine forUp_fails0 (fun row (st : ℤ × (Arr α × Arr ℚ)) => st.1 = row ∧ st.2.1.size = c ∧ st.2.2.size = c) .oob st ⟨a1, a2, a3⟩ ?_ c ⟨hc.le, hrc⟩ ?_
      · rintro row ⟨k, s, e⟩ b1 b2 ⟨b3, b4, b5⟩
        simp only at b3 b4 b5
        subst b3
        unfold idxStep
        have e0 := cols_rd h.data b1 b2 le_rfl hc
        rw [zero_mul, zero_add] at e0
        simp only [e0, bind, Except.bind]
        simp only [rd, wr]
        by_cases hlt : k < c
        · left
          rw [if_pos ⟨b1, by rw [b4]; exact hlt⟩]
          simp only
          by_cases hl : lt (f k 0) (s.at_ k)
          · rw [if_pos hl, if_pos ⟨b1, by rw [b4]; exact hlt⟩]
            simp only
            rw [if_pos ⟨b1, by rw [b5]; exact hlt⟩]
            exact ⟨_, rfl, rfl, b4, b5⟩
          · rw [if_neg hl]
            exact ⟨_, rfl, rfl, b4, b5⟩
        · right
          rw [if_neg (by rw [b4]; omega)]
      · rintro ⟨k, s, e⟩ ⟨b3, b4, b5⟩
        simp only at b3 b4 b5
        subst b3
        unfold idxStep
        have e0 := cols_rd h.data hc.le hrc le_rfl hc
        rw [zero_mul, zero_add] at e0
        simp only [e0, bind, Except.bind]
        simp only [rd]
        rw [if_neg (by rw [b4]; omega)]
  rw [hloop]

/-- `cmin (indices)` on the other matrices: cell `j` gets the best of the top of column `j` and of *row* `j`. -/
theorem cminIdx_post {lt : α → α → Bool} (hs : Strict lt) (g : ℤ → α) (h : Is m r c f) (hr : 0 < r) (hrc : r ≤ c) :
    Post (cminIdx lt g m) fun p => ∃ x : ℤ → α, Is p.1 1 c (fun _ j => x j) ∧ (∀ j, r ≤ j → j < c → x j = f 0 j) ∧
      ∀ j, 0 ≤ j → j < r → (x j = f 0 j ∨ ∃ k, 0 ≤ k ∧ k < c ∧ x j = f j k) ∧ lt (f 0 j) (x j) = false ∧
        ∀ k, 0 ≤ k → k < c → lt (f j k) (x j) = false := by
  have hc : 0 < c := by omega
  have hne : c * r ≠ 0 := by positivity
  unfold cminIdx
  rw [is_n h, if_neg hne, h.rows, h.cols]
  have hz := new_is (show (0 : ℤ) ≤ 1 by omega) hc.le g
  have hy := new_is (show (0 : ℤ) ≤ 1 by omega) hc.le fun _ => (0 : ℚ)
  refine (firstRow_post (d := (newMx 1 c g).data) h hr (by rw [hz.data.size, mul_one])).bind fun d hd => ?_
  have key := colLoop_post (body := fun row col index st => idxStep lt m row col index st)
    (fun col row (st : Arr α × Arr ℚ) => ∃ x : ℤ → α, Cols st.1 1 c (fun _ j => x j) ∧ st.2.size = c ∧ (∀ j, r ≤ j → j < c → x j = f 0 j) ∧
      ∀ j, 0 ≤ j → j < r → (x j = f 0 j ∨ ∃ k, 0 ≤ k ∧ k < c ∧ x j = f j k) ∧ lt (f 0 j) (x j) = false ∧
        ∀ k, 0 ≤ k → k < c → (k < col ∨ k = col ∧ j < row) → lt (f j k) (x j) = false) hr.le hc.le
    (d, (newMx 1 c fun _ => (0 : ℚ)).data)
    ⟨fun j => f 0 j, hd, by have := hy.data.size; simpa using this, fun _ _ _ => rfl, fun j h1 h2 => ⟨.inl rfl, hs.irrefl _, by intros; omega⟩⟩ (by
      rintro row col ⟨d, e⟩ h1 h2 h3 h4 ⟨x, i1, i2, i3, i4⟩
      unfold idxStep
      rw [cols_rd h.data h1 h2 h3 h4]
      simp only [bind, Except.bind] at *
      have e1 := cols_rd i1 (i := 0) (j := row) le_rfl (by omega) h1 (by omega)
      rw [mul_one, add_zero] at e1
      rw [e1]
      simp only
      obtain ⟨j1, j2, j3⟩ := i4 row h1 h2
      by_cases hl : lt (f row col) (x row)
      · rw [if_pos hl]
        have e2 := cols_wr i1 (i := 0) (j := row) le_rfl (by omega) h1 (by omega) (f row col)
        rw [mul_one, add_zero] at e2
        refine e2.bind fun d' hd' => ?_
        unfold wr
        rw [if_pos ⟨h1, by rw [i2]; omega⟩]
        refine ⟨_, rfl, fun j => if j = row then f row col else x j, ?_, i2, ?_, ?_⟩
        · refine hd'.congr fun i j b1 b2 b3 b4 => ?_
          have : i = 0 := by omega
          simp [upd_apply, this]
        · intro j b1 b2
          simp only
          rw [if_neg (by omega)]
          exact i3 j b1 b2
        · intro j b1 b2
          simp only
          by_cases e : j = row
          · subst e
            simp only [if_true]
            refine ⟨.inr ⟨col, h3, h4, rfl⟩, hs.weak _ (x j) _ j2 (hs.asymm hl), fun k k1 k2 k3 => ?_⟩
            by_cases e3 : k = col
            · rw [e3]; exact hs.irrefl _
            · exact hs.weak _ (x j) _ (j3 k k1 k2 (by omega)) (hs.asymm hl)
          · simp only [e, if_false]
            obtain ⟨q1, q2, q3⟩ := i4 j b1 b2
            exact ⟨q1, q2, fun k k1 k2 k3 => q3 k k1 k2 (by omega)⟩
      · rw [if_neg hl]
        refine ⟨_, rfl, x, i1, i2, i3, fun j b1 b2 => ?_⟩
        obtain ⟨q1, q2, q3⟩ := i4 j b1 b2
        refine ⟨q1, q2, fun k k1 k2 k3 => ?_⟩
        by_cases e : j = row ∧ k = col
        · rw [e.1, e.2]; simpa using hl
        · exact q3 k k1 k2 (by omega))
    (by
      rintro col st h1 h2 ⟨x, i1, i2, i3, i4⟩
      refine ⟨x, i1, i2, i3, fun j b1 b2 => ?_⟩
      obtain ⟨q1, q2, q3⟩ := i4 j b1 b2
      exact ⟨q1, q2, fun k k1 k2 k3 => q3 k k1 k2 (by omega)⟩)
  refine Post.bind key ?_
  rintro ⟨d', e'⟩ ⟨x, i1, i2, i3, i4⟩
  refine ⟨_, rfl, x, ⟨hz.rows, hz.cols, i1⟩, i3, fun j b1 b2 => ?_⟩
  obtain ⟨q1, q2, q3⟩ := i4 j b1 b2
  exact ⟨q1, q2, fun k k1 k2 => q3 k k1 k2 (by omega)⟩

theorem nonempty_fails (lt : α → α → Bool) (g : ℤ → α) (h : Is m r c f) (he : c * r = 0) :
    minOf lt m = .error .thrown ∧ minIdx lt m = .error .thrown ∧ rminOf lt g m = .error .thrown ∧ rminIdx lt g m = .error .thrown ∧
      cminOf lt g m = .error .thrown ∧ cminIdx lt g m = .error .thrown := by
  have := is_n h
  rw [he] at this
  simp [minOf, minIdx, rminOf, rminIdx, cminOf, cminIdx, this]

/-! ### The product -/

theorem mtimes_post (add mul : α → α → α) (zero : α) (g : ℤ → α) {b : Mx α} {c' : ℤ} {f' : ℤ → ℤ → α} (h : Is m r c f)
    (hb : Is b c c' f') (h1 : c * r ≠ 1) (h2 : c' * c ≠ 1) :
    Returns (mtimes add mul zero g m b) r c' (fun i j => foldFirst add zero (fun k => mul (f i k) (f' k j)) c.toNat) := by
  have hr := is_r0 h
  have hc := is_c0 h
  have hc' := is_c0 hb
  unfold mtimes
  rw [is_n h, if_neg h1, is_n hb, if_neg h2, h.cols, hb.rows, if_neg (by simp), h.rows, hb.cols]
  have hz := new_is hr hc' (fun _ => zero)
  simp only [hz.rows]
  have key := forUp_post0 (body := fun i (z : Mx α) =>
      forUp (fun j z =>
        forUp (fun k z => do
          let x ← get2 m i k
          let y ← get2 b k j
          let w ← get2 z i j
          set2 z i j (add w (mul x y))) c.toNat 0 z) z.cols.toNat 0 z)
    (fun t z => Is z r c' (fun i j => if i < t then foldFirst add zero (fun k => mul (f i k) (f' k j)) c.toNat else zero)) hr
    (newMx r c' fun _ => zero) (hz.congr fun i j a1 a2 a3 a4 => by rw [if_neg (by omega)]) (by
      intro i z i1 i2 hz
      rw [hz.cols]
      have k2 := forUp_post0 (body := fun j z =>
          forUp (fun k z => do
            let x ← get2 m i k
            let y ← get2 b k j
            let w ← get2 z i j
            set2 z i j (add w (mul x y))) c.toNat 0 z)
        (fun t z => Is z r c' (fun a b => if a < i ∨ a = i ∧ b < t then foldFirst add zero (fun k => mul (f a k) (f' k b)) c.toNat else zero)) hc'
        z (hz.congr fun a b a1 a2 a3 a4 => if_congr (by omega) rfl rfl) (by
          intro j z j1 j2 hz
          have k3 := forUp_post0 (body := fun k z => do
              let x ← get2 m i k
              let y ← get2 b k j
              let w ← get2 z i j
              set2 z i j (add w (mul x y)))
            (fun t z => Is z r c' (fun a b => if a < i ∨ a = i ∧ b < j then foldFirst add zero (fun k => mul (f a k) (f' k b)) c.toNat
              else if a = i ∧ b = j then foldFirst add zero (fun k => mul (f a k) (f' k b)) t.toNat else zero)) hc z
            (hz.congr fun a b a1 a2 a3 a4 => by
              refine if_congr Iff.rfl rfl ?_
              split_ifs <;> rfl) (by
              intro k z k1 k2 hz
              rw [get2_ok h i1 i2 k1 k2]
              simp only [bind, Except.bind]
              rw [get2_ok hb k1 k2 j1 j2]
              simp only
              rw [get2_ok hz i1 i2 j1 j2, if_neg (by omega), if_pos ⟨rfl, rfl⟩]
              simp only
              refine (set2_post hz i1 i2 j1 j2 _).mono fun z' hz' => hz'.congr fun a b a1 a2 a3 a4 => ?_
              simp only [upd_apply]
              by_cases e : a = i ∧ b = j
              · rw [if_pos e, if_neg (by omega), if_pos e, foldFirst_step _ _ _ k1, e.1, e.2]
              · rw [if_neg e, if_neg e, if_neg e])
          refine k3.mono fun z' hz' => hz'.congr fun a b a1 a2 a3 a4 => ?_
          by_cases e : a < i ∨ a = i ∧ b < j
          · rw [if_pos e, if_pos (by omega)]
          · rw [if_neg e]
            exact if_congr (by omega) rfl rfl)
      exact k2.mono fun z' hz' => hz'.congr fun a b a1 a2 a3 a4 => if_congr (by omega) rfl rfl)
  exact key.mono fun z' hz' => hz'.congr fun a b a1 a2 a3 a4 => by rw [if_pos a2]

theorem mtimes_scalar_left (add mul : α → α → α) (zero : α) (g : ℤ → α) {b : Mx α} {r' c' : ℤ} {f' : ℤ → ℤ → α} (h : Is m 1 1 f)
    (hb : Is b r' c' f') : Returns (mtimes add mul zero g m b) r' c' (fun i j => mul (f 0 0) (f' i j)) := by
  unfold mtimes
  rw [is_n h, if_pos (by norm_num), get1_ok h le_rfl (by norm_num)]
  have : nth 1 f 0 = f 0 0 := rfl
  rw [this]
  exact mapNew_post _ g hb

theorem mtimes_scalar_right (add mul : α → α → α) (zero : α) (g : ℤ → α) {b : Mx α} {f' : ℤ → ℤ → α} (h : Is m r c f) (h1 : c * r ≠ 1)
    (hb : Is b 1 1 f') : Returns (mtimes add mul zero g m b) r c (fun i j => mul (f i j) (f' 0 0)) := by
  unfold mtimes
  rw [is_n h, if_neg h1, is_n hb, if_pos (by norm_num), get1_ok hb le_rfl (by norm_num)]
  have : nth 1 f' 0 = f' 0 0 := rfl
  rw [this]
  exact mapNew_post _ g h

theorem mtimes_fails (add mul : α → α → α) (zero : α) (g : ℤ → α) {b : Mx α} {r' c' : ℤ} {f' : ℤ → ℤ → α} (h : Is m r c f)
    (hb : Is b r' c' f') (h1 : c * r ≠ 1) (h2 : c' * r' ≠ 1) (hne : c ≠ r') : mtimes add mul zero g m b = .error .thrown := by
  unfold mtimes
  rw [is_n h, if_neg h1, is_n hb, if_neg h2, h.cols, hb.rows, if_pos hne]

/-! ### `linspace` -/

theorem linspace_post (g : ℤ → ℚ) (a b : ℚ) {n : ℤ} (hn : 2 ≤ n) :
    Returns (linspace g a b n) n 1 (fun i _ => a + (i : ℚ) * ((b - a) / ((n : ℚ) - 1))) := by
  unfold linspace
  rw [show max 1 n = n by omega]
  have hz := new_is (show (0 : ℤ) ≤ n by omega) (show (0 : ℤ) ≤ 1 by omega) g
  unfold linspaceIn
  rw [is_n hz, if_neg (by omega), if_neg (by omega)]
  simp only [one_mul]
  have := forUp_post0 (body := fun i d => wr d i (a + (i : ℚ) * ((b - a) / ((n : ℚ) - 1))))
    (fun t d => Cols d n 1 (fun i _ => if i < t then a + (i : ℚ) * ((b - a) / ((n : ℚ) - 1)) else g i)) (show (0 : ℤ) ≤ n by omega) (newMx n 1 g).data
    (hz.data.congr fun i j a1 a2 a3 a4 => by
      have : j = 0 := by omega
      rw [if_neg (by omega), this]; simp) (by
      intro t d h1 h2 hd
      have := cols_wr hd (i := t) (j := 0) h1 h2 le_rfl (by omega) (a + (t : ℚ) * ((b - a) / ((n : ℚ) - 1)))
      rw [zero_mul, zero_add] at this
      refine this.mono fun d' hd' => hd'.congr fun i j a1 a2 a3 a4 => ?_
      simp only [upd_apply]
      by_cases e : i = t ∧ j = 0
      · rw [if_pos e, if_pos (by omega), e.1]
      · rw [if_neg e]
        exact if_congr (by omega) rfl rfl)
  refine this.bind fun d hd => ⟨_, rfl, hz.rows, hz.cols, hd.congr fun i j a1 a2 a3 a4 => by rw [if_pos a2]⟩

end EdgeEval.MatrixOps
