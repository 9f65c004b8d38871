import Verif.Lemmas.MatrixShape

namespace EdgeEval.MatrixOps

open EdgeEval.Sort (Arr)
open Spec.MatrixOps

variable {α : Type} {m : Mx α} {r c : ℤ} {f : ℤ → ℤ → α}

theorem memcpy_post {dst src : Arr α} {p q len : ℤ} (h0 : 0 ≤ len)
    (hb : 0 < len → 0 ≤ p ∧ p + len ≤ dst.size ∧ 0 ≤ q ∧ q + len ≤ src.size) :
    Post (memcpy dst p src q len) fun d => d.size = dst.size ∧
      ∀ k, d.at_ k = if p ≤ k ∧ k < p + len then src.at_ (q + (k - p)) else dst.at_ k := by
  unfold memcpy
  by_cases h : len ≤ 0
  · rw [if_pos h]
    exact ⟨_, rfl, rfl, fun k => by rw [if_neg (by omega)]⟩
  · rw [if_neg h, if_pos (hb (by omega))]
    exact ⟨_, rfl, rfl, fun k => rfl⟩

theorem eye_post (zero one : α) (r c : ℤ) (hr : 0 ≤ r) (hc : 0 ≤ c) :
    Returns (eye zero one r c) r c (fun i j => if i = j then one else zero) := by
  have h : Is (newMx r c fun _ => zero) r c (fun _ _ => zero) := new_is hr hc _
  unfold eye
  simp only [h.rows, h.cols]
  have := forUp_post0 (body := fun i d => wr d (i * r + i) one)
    (fun k d => Cols d r c (fun i j => if i = j ∧ i < k then one else zero)) (show 0 ≤ min r c by omega) (newMx r c fun _ => zero).data
    (h.data.congr fun i j h1 h2 h3 h4 => by rw [if_neg (by omega)]) (by
      intro k d h1 h2 hd
      refine (cols_wr hd h1 (by omega) h1 (by omega) one).mono fun b hb => hb.congr fun i j h3 h4 h5 h6 => ?_
      simp only [upd_apply]
      by_cases e : i = k ∧ j = k
      · rw [if_pos e, if_pos (by omega)]
      · rw [if_neg e]
        exact if_congr (by omega) rfl rfl)
  refine this.bind fun d hd => ⟨_, rfl, rfl, rfl, hd.congr fun i j h1 h2 h3 h4 => ?_⟩
  exact if_congr (by omega) rfl rfl

theorem rot90_post (g : ℤ → α) (k : ℤ) (h : Is m r c f) :
    (k % 4 = 0 → Returns (rot90 g k m) r c f) ∧
    (k % 4 = 1 → Returns (rot90 g k m) c r (fun i j => f j (c - 1 - i))) ∧
    (k % 4 = 2 → Returns (rot90 g k m) r c (fun i j => f (r - 1 - i) (c - 1 - j))) ∧
    (k % 4 = 3 → Returns (rot90 g k m) c r (fun i j => f (r - 1 - j) i)) := by
  have hrc : rotCount k = k % 4 := by
    unfold rotCount
    have : k.tmod 4 = if k % 4 = 0 ∨ 0 ≤ k then k % 4 else k % 4 - 4 := by
      rw [Int.tmod_eq_emod]
      split_ifs <;> simp_all <;> omega
    rw [this]
    split_ifs <;> omega
  unfold rot90
  rw [hrc]
  refine ⟨fun e => ?_, fun e => ?_, fun e => ?_, fun e => ?_⟩
  · rw [if_pos e]; exact ⟨_, rfl, h⟩
  · rw [if_neg (by omega), if_pos e]
    exact Post.bind (transpose_post g h) fun t ht => flipud_post ht
  · rw [if_neg (by omega), if_neg (by omega), if_pos e]
    exact Post.bind (flipud_post h) fun t ht => fliplr_post ht
  · rw [if_neg (by omega), if_neg (by omega), if_neg (by omega), if_pos e]
    exact Post.bind (flipud_post h) fun t ht => transpose_post g ht

theorem tri_post (zero : α) (P : ℤ → ℤ → Prop) [∀ i j, Decidable (P i j)] (h : Is m r c f) :
    Post (colLoop m.rows m.cols (fun row col index d => if P row col then wr d index zero else .ok d) m.data)
      fun d => Cols d r c (fun i j => if P i j then zero else f i j) := by
  have hr := is_r0 h
  have hc := is_c0 h
  rw [h.rows, h.cols]
  have := colLoop_post (body := fun row col index d => if P row col then wr d index zero else .ok d)
    (fun col row d => Cols d r c (fun i j => if P i j ∧ (j < col ∨ j = col ∧ i < row) then zero else f i j)) hr hc m.data
    (h.data.congr fun i j h1 h2 h3 h4 => by rw [if_neg (by omega)]) (by
      intro row col d h1 h2 h3 h4 hd
      by_cases e : P row col
      · rw [if_pos e]
        refine (cols_wr hd h1 h2 h3 h4 zero).mono fun b hb => hb.congr fun i j h5 h6 h7 h8 => ?_
        simp only [upd_apply]
        by_cases e1 : i = row ∧ j = col
        · rw [if_pos e1, if_pos ⟨by rw [e1.1, e1.2]; exact e, by omega⟩]
        · rw [if_neg e1]
          exact if_congr (and_congr_right fun _ => by omega) rfl rfl
      · rw [if_neg e]
        refine ⟨_, rfl, hd.congr fun i j h5 h6 h7 h8 => ?_⟩
        by_cases e1 : i = row ∧ j = col
        · rw [if_neg (by rw [e1.1, e1.2]; tauto), if_neg (by rw [e1.1, e1.2]; tauto)]
        · exact if_congr (and_congr_right fun _ => by omega) rfl rfl)
    (by
      intro col d h1 h2 hd
      exact hd.congr fun i j h5 h6 h7 h8 => if_congr (and_congr_right fun _ => by omega) rfl rfl)
  refine this.mono fun d hd => hd.congr fun i j h1 h2 h3 h4 => if_congr ?_ rfl rfl
  constructor
  · exact fun h => h.1
  · exact fun h => ⟨h, by omega⟩

theorem tril_post (zero : α) (k : ℤ) (h : Is m r c f) :
    Returns (tril zero k m) r c (fun i j => if j - i > k then zero else f i j) := by
  unfold tril
  exact (tri_post zero (fun row col => col - row > k) h).bind fun d hd => ⟨_, rfl, h.rows, h.cols, hd⟩

theorem triu_post (zero : α) (k : ℤ) (h : Is m r c f) :
    Returns (triu zero k m) r c (fun i j => if j - i < k then zero else f i j) := by
  unfold triu
  exact (tri_post zero (fun row col => col - row < k) h).bind fun d hd => ⟨_, rfl, h.rows, h.cols, hd⟩

/-! ### `repmat` -/

theorem repmat_post (g : ℤ → α) {p q : ℤ} (hp : 0 ≤ p) (hq : 1 ≤ q) (hr' : 0 < r) (h : Is m r c f) :
    Returns (repmat g p q m) (r * p) (c * q) (fun i j => f (i % r) (j % c)) := by
  have hr := is_r0 h
  have hc := is_c0 h
  unfold repmat
  rw [max_eq_right hp, max_eq_right (show 0 ≤ q by omega)]
  have hrp : 0 ≤ r * p := by positivity
  have hcq : 0 ≤ c * q := mul_nonneg hc (by omega)
  have hz : Is (newMx (m.rows * p) (m.cols * q) g) (r * p) (c * q) (fun i j => g (j * (r * p) + i)) := by
    rw [h.rows, h.cols]
    exact new_is hrp hcq g
  have hle : c * (r * p) ≤ c * q * (r * p) := by
    have := mul_le_mul_of_nonneg_right (mul_le_mul_of_nonneg_left hq hc) hrp
    simpa using this
  simp only [h.rows, h.cols] at hz ⊢
  -- first phase
  have h1 := forUp_post0 (body := fun col (st : ℤ × Arr α) =>
      forUp (fun _ (st : ℤ × Arr α) => do
        let q ← at2 m 0 col
        let d ← memcpy st.2 st.1 m.data q r
        pure (st.1 + r, d)) p.toNat 0 st)
    (fun col st => st.1 = col * (r * p) ∧ st.2.size = c * q * (r * p) ∧
      ∀ k, 0 ≤ k → k < col * (r * p) → st.2.at_ k = f (k % r) (k / (r * p))) hc (0, (newMx (r * p) (c * q) g).data)
    ⟨by simp, hz.data.size, fun k h1 h2 => by omega⟩ (by
      rintro col st h1 h2 ⟨h3, h4, h5⟩
      have hin := forUp_post0 (body := fun _ (st : ℤ × Arr α) => do
          let q ← at2 m 0 col
          let d ← memcpy st.2 st.1 m.data q r
          pure (st.1 + r, d))
        (fun t st => st.1 = col * (r * p) + t * r ∧ st.2.size = c * q * (r * p) ∧
          ∀ k, 0 ≤ k → k < col * (r * p) + t * r → st.2.at_ k = f (k % r) (k / (r * p))) hp st
        ⟨by rw [h3]; ring, h4, fun k h6 h7 => h5 k h6 (by omega)⟩ (by
          rintro t s h6 h7 ⟨h8, h9, h10⟩
          rw [at2_ok h le_rfl hr' h1 h2]
          simp only [bind, Except.bind]
          have hfin : col * (r * p) + t * r + r ≤ c * (r * p) := by
            have a1 : (t + 1) * r ≤ p * r := mul_le_mul_of_nonneg_right (by omega) hr
            have a2 : (col + 1) * (r * p) ≤ c * (r * p) := mul_le_mul_of_nonneg_right (by omega) hrp
            nlinarith
          have hst : 0 ≤ col * (r * p) + t * r := by positivity
          refine (memcpy_post (dst := s.2) (p := s.1) (src := m.data) (q := col * r + 0) hr (fun _ => ?_)).bind fun d hd => ?_
          · rw [h8, h9, h.data.size]
            refine ⟨hst, by omega, by positivity, ?_⟩
            have : (col + 1) * r ≤ c * r := mul_le_mul_of_nonneg_right (by omega) hr
            linarith
          · refine ⟨_, rfl, by simp only [h8]; ring, by rw [hd.1, h9], fun k h11 h12 => ?_⟩
            simp only
            rw [hd.2, h8]
            by_cases hk : col * (r * p) + t * r ≤ k
            · have hk' : k < col * (r * p) + t * r + r := by linarith
              rw [if_pos ⟨hk, hk'⟩]
              have e1 : k = (col * p + t) * r + (k - (col * (r * p) + t * r)) := by ring
              have b1 : 0 ≤ k - (col * (r * p) + t * r) := by omega
              have b2 : k - (col * (r * p) + t * r) < r := by omega
              have e2 : k % r = k - (col * (r * p) + t * r) := by
                conv_lhs => rw [e1]
                exact idx_mod b1 b2
              have e3 : k / (r * p) = col := by
                have e4 : k = col * (r * p) + (k - col * (r * p)) := by ring
                rw [e4]
                refine idx_div ?_ ?_
                · have : 0 ≤ t * r := by positivity
                  omega
                · have : (t + 1) * r ≤ p * r := mul_le_mul_of_nonneg_right (by omega) hr
                  linarith
              rw [e2, e3, ← h.data.entry _ col b1 b2 h1 h2]
              congr 1; ring
            · rw [if_neg (by omega)]
              exact h10 k h11 (by omega))
      refine hin.mono fun b hb => ⟨?_, hb.2.1, fun k h6 h7 => hb.2.2 k h6 ?_⟩
      · rw [hb.1]; ring
      · linarith)
  refine Post.bind h1 ?_
  rintro ⟨P, D⟩ ⟨hP, hS, hV⟩
  simp only at hP hS hV ⊢
  -- second phase
  have hcount : c * r * p = c * (r * p) := by ring
  have hcnt0 : 0 ≤ c * (r * p) := by positivity
  have h2 := forUp_post (body := fun _ (st : ℤ × Arr α) => do
      let d ← memcpy st.2 st.1 st.2 0 (c * r * p)
      pure (st.1 + c * r * p, d))
    (fun t st => st.1 = t * (c * (r * p)) ∧ st.2.size = c * q * (r * p) ∧
      ∀ k, 0 ≤ k → k < t * (c * (r * p)) → st.2.at_ k = f (k % (c * (r * p)) % r) (k % (c * (r * p)) / (r * p)))
    (q - 1).toNat 1 (P, D) ⟨by simp [hP], hS, fun k a b => by
      rw [one_mul] at b
      rw [Int.emod_eq_of_lt a b]; exact hV k a b⟩ (by
      rintro t st a b ⟨i1, i2, i3⟩
      rw [hcount]
      have hup : (t + 1) * (c * (r * p)) ≤ c * q * (r * p) := by
        have := mul_le_mul_of_nonneg_right (show t + 1 ≤ q by omega) hcnt0
        calc _ ≤ q * (c * (r * p)) := this
          _ = _ := by ring
      have hlo : c * (r * p) ≤ t * (c * (r * p)) := by
        have := mul_le_mul_of_nonneg_right a hcnt0
        simpa using this
      refine (memcpy_post (dst := st.2) (p := st.1) (src := st.2) (q := 0) hcnt0 (fun hpos => ?_)).bind fun d hd => ?_
      · rw [i1, i2]
        refine ⟨by omega, ?_, le_rfl, ?_⟩
        · calc _ = (t + 1) * (c * (r * p)) := by ring
            _ ≤ _ := hup
        · rw [zero_add]; exact hle
      · refine ⟨_, rfl, by simp only [i1]; ring, by rw [hd.1, i2], fun k j1 j2 => ?_⟩
        simp only
        rw [hd.2, i1]
        by_cases hk : t * (c * (r * p)) ≤ k
        · have hk' : k < t * (c * (r * p)) + c * (r * p) := by linarith
          rw [if_pos ⟨hk, hk'⟩, zero_add]
          have e1 : k % (c * (r * p)) = k - t * (c * (r * p)) := by
            have : k = t * (c * (r * p)) + (k - t * (c * (r * p))) := by ring
            conv_lhs => rw [this]
            exact idx_mod (by omega) (by omega)
          have e2 : (k - t * (c * (r * p))) % (c * (r * p)) = k - t * (c * (r * p)) := Int.emod_eq_of_lt (by omega) (by omega)
          rw [i3 _ (by omega) (by omega), e1, e2]
        · rw [if_neg (by omega)]
          exact i3 k j1 (by omega))
  refine Post.bind h2 ?_
  rintro ⟨P', D'⟩ ⟨_, hS', hV'⟩
  refine ⟨_, rfl, hz.rows, hz.cols, hrp, hcq, hS', fun i j h3 h4 h5 h6 => ?_⟩
  simp only at hV' ⊢
  have hcpos : 0 < c := by
    rcases hc.lt_or_eq with h | h
    · exact h
    · subst h; simp at h6; omega
  have hppos : 0 < p := by
    rcases hp.lt_or_eq with h | h
    · exact h
    · subst h; simp at h4; omega
  have hrppos : 0 < r * p := by positivity
  have hm1 : 0 ≤ j % c := Int.emod_nonneg _ (by omega)
  have hm2 : j % c < c := Int.emod_lt_of_pos _ hcpos
  have e0 : j * (r * p) + i = (j / c) * (c * (r * p)) + (j % c * (r * p) + i) := by
    have : j = c * (j / c) + j % c := (Int.mul_ediv_add_emod j c).symm
    conv_lhs => rw [this]
    ring
  have e1 : (j * (r * p) + i) % (c * (r * p)) = j % c * (r * p) + i := by
    rw [e0]
    exact idx_mod (idx_nonneg hrp h3 hm1) (idx_lt h3 h4 hm2)
  rw [hV' _ (idx_nonneg hrp h3 h5) ?_, e1, idx_div h3 h4]
  · congr 1
    rw [show j % c * (r * p) + i = i + r * (j % c * p) by ring, Int.add_mul_emod_self_left]
  · have := idx_lt h3 h4 h6
    rw [show (1 : ℤ) + ((q - 1).toNat : ℤ) = q by omega]
    calc _ < _ := this
      _ = _ := by ring

/-! ### Diagonals -/

theorem diag_bounds (k : ℤ) : 0 ≤ diagRow k ∧ 0 ≤ diagCol k ∧ diagCol k - diagRow k = k ∧ (diagRow k = 0 ∨ diagCol k = 0) := by
  unfold diagRow diagCol
  split_ifs <;> simp [abs] <;> omega

theorem setdiag1_post (x : α) (k : ℤ) (h : Is m r c f) :
    Returns (setdiag1 m x k) r c (fun i j => if j - i = k then x else f i j) := by
  obtain ⟨b1, b2, b3, b4⟩ := diag_bounds k
  unfold setdiag1
  rw [h.rows, h.cols]
  by_cases hl : 0 ≤ min (r - diagRow k) (c - diagCol k)
  · have := forUp_post0 (body := fun i m => set2 m (diagRow k + i) (diagCol k + i) x)
      (fun t s => Is s r c (fun i j => if j - i = k ∧ i < diagRow k + t then x else f i j)) hl m
      (h.congr fun i j h1 h2 h3 h4 => by rw [if_neg (by omega)]) (by
        intro t s h1 h2 hs
        refine (set2_post hs (by omega) (by omega) (by omega) (by omega) x).mono fun b hb => hb.congr fun i j h3 h4 h5 h6 => ?_
        simp only [upd_apply]
        by_cases e : i = diagRow k + t ∧ j = diagCol k + t
        · rw [if_pos e, if_pos (by omega)]
        · rw [if_neg e]
          exact if_congr (by omega) rfl rfl)
    exact this.mono fun b hb => hb.congr fun i j h3 h4 h5 h6 => if_congr (by omega) rfl rfl
  · rw [Int.toNat_of_nonpos (by omega)]
    exact ⟨_, rfl, h.congr fun i j h1 h2 h3 h4 => by rw [if_neg (by omega)]⟩

theorem get1_ok (h : Is m r c f) {i : ℤ} (h1 : 0 ≤ i) (h2 : i < c * r) : get1 m i = .ok (nth r f i) := by
  unfold get1
  rw [is_n h, if_pos ⟨h1, h2⟩, cols_rdk h.data h1 h2]

theorem setdiagV_post {v : Mx α} {r' c' : ℤ} {f' : ℤ → ℤ → α} (k : ℤ) (h : Is m r c f) (hv : Is v r' c' f')
    (hn : r' * c' = max 0 (min (r - diagRow k) (c - diagCol k))) :
    Returns (setdiagV m v k) r c (fun i j => if j - i = k then nth r' f' (min i j) else f i j) := by
  obtain ⟨b1, b2, b3, b4⟩ := diag_bounds k
  unfold setdiagV
  rw [h.rows, h.cols, is_n hv, Int.mul_comm c' r', if_neg (by omega)]
  have := forUp_post0 (body := fun i m => do
      let x ← get1 v i
      set2 m (diagRow k + i) (diagCol k + i) x)
    (fun t s => Is s r c (fun i j => if j - i = k ∧ i < diagRow k + t then nth r' f' (min i j) else f i j))
    (show 0 ≤ max 0 (min (r - diagRow k) (c - diagCol k)) by omega) m
    (h.congr fun i j h1 h2 h3 h4 => by rw [if_neg (by omega)]) (by
      intro t s h1 h2 hs
      rw [get1_ok hv h1 (by rw [Int.mul_comm]; omega)]
      refine (set2_post hs (by omega) (by omega) (by omega) (by omega) _).mono fun b hb => hb.congr fun i j h3 h4 h5 h6 => ?_
      simp only [upd_apply]
      by_cases e : i = diagRow k + t ∧ j = diagCol k + t
      · rw [if_pos e, if_pos (by omega)]
        congr 1; omega
      · rw [if_neg e]
        exact if_congr (by omega) rfl rfl)
  exact this.mono fun b hb => hb.congr fun i j h3 h4 h5 h6 => if_congr (by omega) rfl rfl

theorem getdiag_post (zero : α) (k : ℤ) (h : Is m r c f) :
    Returns (getdiag zero m k) (max 0 (min (r - max 0 (-k)) (c - max 0 k))) 1 (fun i _ => f (max 0 (-k) + i) (max 0 k + i)) := by
  obtain ⟨b1, b2, b3, b4⟩ := diag_bounds k
  have e1 : diagRow k = max 0 (-k) := by omega
  have e2 : diagCol k = max 0 k := by omega
  unfold getdiag
  rw [h.rows, h.cols, e1, e2]
  simp only
  generalize hL : min (r - max 0 (-k)) (c - max 0 k) = L
  have hd0 : Is (newMx L 1 fun _ => zero) (max 0 L) 1 (fun _ _ => zero) := new_is_const L 1 zero
  have key := forUp_post0 (body := fun i (d : Mx α) => do
      let x ← get2 m (max 0 (-k) + i) (max 0 k + i)
      if 0 ≤ i ∧ i < d.n then do
        let e ← wr d.data i x
        pure { d with data := e }
      else .error .thrown)
    (fun t d => Is d (max 0 L) 1 (fun i _ => if i < t then f (max 0 (-k) + i) (max 0 k + i) else zero)) (show 0 ≤ max 0 L by omega)
    (newMx L 1 fun _ => zero) (hd0.congr fun i j h1 h2 h3 h4 => by rw [if_neg (by omega)]) (by
      intro t d h1 h2 hd
      rw [get2_ok h (by omega) (by omega) (by omega) (by omega)]
      simp only [bind, Except.bind]
      rw [is_n hd, if_pos (by omega)]
      have := cols_wr hd.data (i := t) (j := 0) h1 h2 le_rfl (by omega) (f (max 0 (-k) + t) (max 0 k + t))
      rw [zero_mul, zero_add] at this
      refine this.bind fun e he => ⟨_, rfl, hd.rows, hd.cols, he.congr fun i j h3 h4 h5 h6 => ?_⟩
      simp only [upd_apply]
      by_cases e : i = t ∧ j = 0
      · rw [if_pos e, if_pos (by omega), e.1]
      · rw [if_neg e]
        exact if_congr (by omega) rfl rfl)
  rw [show L.toNat = (max 0 L).toNat by omega]
  exact key.mono fun b hb => hb.congr fun i j h3 h4 h5 h6 => by rw [if_pos (by omega)]

theorem diag_vec_post (zero : α) (k : ℤ) (h : Is m r c f) (hv : r = 1 ∨ c = 1) :
    Returns (diag zero m k) (r * c + |k|) (r * c + |k|) (fun i j => if i - j = k then nth r f (min i j) else zero) := by
  obtain ⟨b1, b2, b3, b4⟩ := diag_bounds k
  have hr := is_r0 h
  have hc := is_c0 h
  have hn : 0 ≤ r * c := by positivity
  unfold diag
  rw [if_pos (by simpa [isvec, h.rows, h.cols] using hv), is_n h, Int.mul_comm c r]
  have hab : |k| = diagRow k + diagCol k := by
    rcases abs_cases k with ⟨h1, h2⟩ | ⟨h1, h2⟩ <;> omega
  rw [hab]
  have hz : Is (newMx (r * c + (diagRow k + diagCol k)) (r * c + (diagRow k + diagCol k)) fun _ => zero) _ _ (fun _ _ => zero) :=
    new_is (by omega) (by omega) _
  have := forUp_post0 (body := fun i z => do
      let x ← get1 m i
      set2 z (diagCol k + i) (diagRow k + i) x)
    (fun t s => Is s (r * c + (diagRow k + diagCol k)) (r * c + (diagRow k + diagCol k))
      (fun i j => if i - j = k ∧ min i j < t then nth r f (min i j) else zero)) hn _
    (hz.congr fun i j h1 h2 h3 h4 => by rw [if_neg (by omega)]) (by
      intro t s h1 h2 hs
      rw [get1_ok h h1 (by rw [Int.mul_comm]; omega)]
      refine (set2_post hs (by omega) (by omega) (by omega) (by omega) _).mono fun b hb => hb.congr fun i j h3 h4 h5 h6 => ?_
      simp only [upd_apply]
      by_cases e : i = diagCol k + t ∧ j = diagRow k + t
      · rw [if_pos e, if_pos (by omega)]
        congr 1; omega
      · rw [if_neg e]
        exact if_congr (by omega) rfl rfl)
  exact this.mono fun b hb => hb.congr fun i j h3 h4 h5 h6 => if_congr (by omega) rfl rfl

theorem diag_mat_post (zero : α) (k : ℤ) (h : Is m r c f) (hv : r ≠ 1 ∧ c ≠ 1) : diag zero m k = getdiag zero m k := by
  unfold diag
  rw [if_neg (by simpa [isvec, h.rows, h.cols] using hv)]

end EdgeEval.MatrixOps
