import Verif.Lemmas.MatrixOps
import Mathlib.Tactic.SplitIfs

namespace EdgeEval.MatrixOps

open EdgeEval.Sort (Arr)
open Spec.MatrixOps

variable {α : Type} {m : Mx α} {r c : ℤ} {f : ℤ → ℤ → α}

theorem is_r0 (h : Is m r c f) : 0 ≤ r := h.data.r0
theorem is_c0 (h : Is m r c f) : 0 ≤ c := h.data.c0

theorem reshape_post (h : Is m r c f) {r' c' : ℤ} (h1 : 0 ≤ r') (h2 : 0 ≤ c') (hn : r' * c' = r * c) :
    Returns (reshape m r' c') r' c' (fun i j => nth r f (j * r' + i)) := by
  unfold reshape
  rw [if_neg (by rw [is_n h, max_eq_right h1, max_eq_right h2, hn, Int.mul_comm]; simp)]
  rw [max_eq_right h1, max_eq_right h2]
  refine ⟨_, rfl, rfl, rfl, h1, h2, ?_, fun i j a b e g => ?_⟩
  · simp only; rw [h.data.size, Int.mul_comm, ← hn, Int.mul_comm]
  · simp only
    rw [cols_lin h.data (idx_nonneg h1 a e)]
    have := idx_lt a b g
    rw [Int.mul_comm c r, ← hn, Int.mul_comm r' c']; exact this

theorem upd_apply (f : ℤ → ℤ → α) (i j : ℤ) (x : α) (a b : ℤ) : upd f i j x a b = if a = i ∧ b = j then x else f a b := rfl

theorem transpose_post (g : ℤ → α) (h : Is m r c f) : Returns (transpose g m) c r (fun i j => f j i) := by
  have hr := is_r0 h
  have hc := is_c0 h
  unfold transpose
  by_cases hv : isvec m
  · rw [if_pos hv, h.rows, h.cols]
    obtain ⟨b, hb, hB⟩ := reshape_post h hc hr (Int.mul_comm c r)
    refine ⟨b, hb, hB.congr fun i j h1 h2 h3 h4 => ?_⟩
    simp only [isvec, h.rows, h.cols, decide_eq_true_eq] at hv
    simp only [nth]
    rcases hv with rfl | rfl
    · have : j = 0 := by omega
      subst this
      simp
    · have : i = 0 := by omega
      subst this
      rw [show j * 1 + 0 = 0 * r + j by ring, idx_mod h3 h4, idx_div h3 h4]
  · rw [if_neg hv]
    by_cases hsq : m.rows = m.cols
    · rw [if_pos hsq]
      have hrc : c = r := by rw [h.rows, h.cols] at hsq; exact hsq.symm
      subst hrc
      rw [h.rows]
      have := forUp_post0 (body := fun row m =>
          forUp (fun col (m : Mx α) => do
            let x ← rd m.data (col * m.rows + row)
            let y ← rd m.data (row * m.rows + col)
            let d ← wr m.data (col * m.rows + row) y
            let d ← wr d (row * m.rows + col) x
            pure { m with data := d }) (m.cols - (row + 1)).toNat (row + 1) m)
        (fun row s => Is s c c (fun i j => if min i j < row then f j i else f i j)) hr m
        (h.congr fun i j h1 h2 h3 h4 => by rw [if_neg (by omega)]) (by
          intro row s h1 h2 hs
          have := forUp_post (body := fun col (m : Mx α) => do
              let x ← rd m.data (col * m.rows + row)
              let y ← rd m.data (row * m.rows + col)
              let d ← wr m.data (col * m.rows + row) y
              let d ← wr d (row * m.rows + col) x
              pure { m with data := d })
            (fun col s => Is s c c (fun i j => if min i j < row ∨ min i j = row ∧ max i j < col then f j i else f i j))
            (s.cols - (row + 1)).toNat (row + 1) s
            (hs.congr fun i j h1 h2 h3 h4 => by
              by_cases e : i = j
              · subst e; simp
              · have : (min i j < row) ↔ (min i j < row ∨ min i j = row ∧ max i j < row + 1) := by omega
                exact if_congr this rfl rfl) (by
              intro col t h3 h4 ht
              rw [hs.cols] at h4
              have hcl : col < c := by omega
              simp only [ht.rows]
              rw [cols_rd ht.data h1 h2 (by omega) hcl]
              simp only [bind, Except.bind]
              rw [cols_rd ht.data (by omega) hcl h1 h2]
              simp only
              refine (cols_wr ht.data h1 h2 (by omega) hcl _).bind fun d hd => ?_
              refine (cols_wr hd (by omega) hcl h1 h2 _).bind fun d' hd' => ?_
              refine ⟨_, rfl, rfl, ht.cols, hd'.congr fun i j a b e' g' => ?_⟩
              simp only [upd_apply]
              by_cases e1 : i = col ∧ j = row
              · rw [if_pos e1, if_neg (by omega), if_pos (by omega)]
                obtain ⟨rfl, rfl⟩ := e1; rfl
              · rw [if_neg e1]
                by_cases e2 : i = row ∧ j = col
                · rw [if_pos e2, if_neg (by omega), if_pos (by omega)]
                  obtain ⟨rfl, rfl⟩ := e2; rfl
                · rw [if_neg e2]
                  have : (min i j < row ∨ min i j = row ∧ max i j < col) ↔ (min i j < row ∨ min i j = row ∧ max i j < col + 1) := by omega
                  simp only [this])
          refine this.mono fun b hb => hb.congr fun i j h3 h4 h5 h6 => ?_
          rw [hs.cols]
          have : (min i j < row ∨ min i j = row ∧ max i j < row + 1 + ((c - (row + 1)).toNat : ℤ)) ↔ min i j < row + 1 := by omega
          simp only [this])
      exact this.mono fun b hb => hb.congr fun i j h3 h4 h5 h6 => by rw [if_pos (by omega)]
    · rw [if_neg hsq, h.rows, h.cols]
      have h1 := colLoop_post (body := fun row col index (t : Mx α) => do
          let x ← rd m.data index
          set2 t col row x)
        (fun col row t => Is t c r (fun i j => if i < col ∨ i = col ∧ j < row then f j i else g (j * c + i))) hr hc (newMx c r g)
        ((new_is hc hr g).congr fun i j h1 h2 h3 h4 => by rw [if_neg (by omega)]) (by
          intro row col s h1 h2 h3 h4 hs
          rw [cols_rd h.data h1 h2 h3 h4]
          refine (set2_post hs h3 h4 h1 h2 _).mono fun b hb => hb.congr fun i j a b' e g' => ?_
          simp only [upd_apply]
          by_cases e1 : i = col ∧ j = row
          · rw [if_pos e1, if_pos (by omega)]
            obtain ⟨rfl, rfl⟩ := e1; rfl
          · rw [if_neg e1]
            have : (i < col ∨ i = col ∧ j < row) ↔ (i < col ∨ i = col ∧ j < row + 1) := by omega
            simp only [this])
        (by
          intro col s h1 h2 hs
          exact hs.congr fun i j h3 h4 h5 h6 => by
            have : (i < col ∨ i = col ∧ j < r) ↔ (i < col + 1 ∨ i = col + 1 ∧ j < 0) := by omega
            simp only [this])
      refine h1.bind fun t ht => ?_
      have ht' : Is t c r (fun i j => f j i) := ht.congr fun i j h3 h4 h5 h6 => by rw [if_pos (by omega)]
      obtain ⟨m', hm', hM⟩ := reshape_post h hc hr (Int.mul_comm c r)
      rw [hm']
      simp only [bind, Except.bind]
      unfold memcpy
      rw [is_n hM]
      by_cases h0 : r * c ≤ 0
      · rw [if_pos h0]
        refine ⟨_, rfl, ht'.rows, ht'.cols, hc, hr, hM.data.size, fun i j a b e g' => ?_⟩
        have := idx_lt a b g'
        have := idx_nonneg hc a e
        omega
      · rw [if_neg h0, if_pos (by rw [hM.data.size, ht'.data.size]; omega)]
        refine ⟨_, rfl, ht'.rows, ht'.cols, hc, hr, hM.data.size, fun i j a b e g' => ?_⟩
        have h5 := idx_lt a b g'
        have h6 := idx_nonneg hc a e
        simp only
        rw [if_pos (by omega), show 0 + (j * c + i - 0) = j * c + i by ring, ht'.data.entry i j a b e g']

theorem fliplr_post (h : Is m r c f) : Returns (fliplr m) r c (fun i j => f i (c - 1 - j)) := by
  have hr := is_r0 h
  have hc := is_c0 h
  unfold fliplr
  rw [h.cols]
  have := forUp_post0 (body := fun col m =>
      forUp (fun row (m : Mx α) => swap2 m row col row (m.cols - 1 - col)) m.rows.toNat 0 m)
    (fun col s => Is s r c (fun i j => if j < col ∨ c - 1 - j < col then f i (c - 1 - j) else f i j))
    (show 0 ≤ c / 2 by omega) m (h.congr fun i j h1 h2 h3 h4 => by rw [if_neg (by omega)]) (by
      intro col s h1 h2 hs
      rw [hs.rows]
      have := forUp_post0 (body := fun row (m : Mx α) => swap2 m row col row (m.cols - 1 - col))
        (fun row s => Is s r c (fun i j => if j < col ∨ c - 1 - j < col ∨ (j = col ∨ c - 1 - j = col) ∧ i < row then f i (c - 1 - j) else f i j))
        hr s (hs.congr fun i j h3 h4 h5 h6 => by
          have : (j < col ∨ c - 1 - j < col) ↔ (j < col ∨ c - 1 - j < col ∨ (j = col ∨ c - 1 - j = col) ∧ i < 0) := by omega
          simp only [this]) (by
          intro row t h3 h4 ht
          rw [ht.cols]
          refine (swap2_post ht h3 h4 h1 (by omega) h3 h4 (by omega) (by omega)).mono fun b hb => hb.congr fun i j a b' e g' => ?_
          simp only [upd_apply]
          by_cases e1 : i = row ∧ j = c - 1 - col
          · rw [if_pos e1, if_neg (by omega), if_pos (by omega)]
            obtain ⟨rfl, rfl⟩ := e1
            congr 1; omega
          · rw [if_neg e1]
            by_cases e2 : i = row ∧ j = col
            · rw [if_pos e2, if_neg (by omega), if_pos (by omega)]
              obtain ⟨rfl, rfl⟩ := e2; rfl
            · rw [if_neg e2]
              have : (j < col ∨ c - 1 - j < col ∨ (j = col ∨ c - 1 - j = col) ∧ i < row) ↔
                (j < col ∨ c - 1 - j < col ∨ (j = col ∨ c - 1 - j = col) ∧ i < row + 1) := by omega
              simp only [this])
      refine this.mono fun b hb => hb.congr fun i j h3 h4 h5 h6 => ?_
      have : (j < col ∨ c - 1 - j < col ∨ (j = col ∨ c - 1 - j = col) ∧ i < r) ↔ (j < col + 1 ∨ c - 1 - j < col + 1) := by omega
      simp only [this])
  refine this.mono fun b hb => hb.congr fun i j h3 h4 h5 h6 => ?_
  by_cases e : j < c / 2 ∨ c - 1 - j < c / 2
  · rw [if_pos e]
  · rw [if_neg e]; congr 1; omega

theorem flipud_post (h : Is m r c f) : Returns (flipud m) r c (fun i j => f (r - 1 - i) j) := by
  have hr := is_r0 h
  have hc := is_c0 h
  unfold flipud
  rw [h.rows]
  have := forUp_post0 (body := fun row m =>
      forUp (fun col (m : Mx α) => swap2 m row col (m.rows - 1 - row) col) m.cols.toNat 0 m)
    (fun row s => Is s r c (fun i j => if i < row ∨ r - 1 - i < row then f (r - 1 - i) j else f i j))
    (show 0 ≤ r / 2 by omega) m (h.congr fun i j h1 h2 h3 h4 => by rw [if_neg (by omega)]) (by
      intro row s h1 h2 hs
      rw [hs.cols]
      have := forUp_post0 (body := fun col (m : Mx α) => swap2 m row col (m.rows - 1 - row) col)
        (fun col s => Is s r c (fun i j => if i < row ∨ r - 1 - i < row ∨ (i = row ∨ r - 1 - i = row) ∧ j < col then f (r - 1 - i) j else f i j))
        hc s (hs.congr fun i j h3 h4 h5 h6 => by
          have : (i < row ∨ r - 1 - i < row) ↔ (i < row ∨ r - 1 - i < row ∨ (i = row ∨ r - 1 - i = row) ∧ j < 0) := by omega
          simp only [this]) (by
          intro col t h3 h4 ht
          rw [ht.rows]
          refine (swap2_post ht h1 (by omega) h3 h4 (by omega) (by omega) h3 h4).mono fun b hb => hb.congr fun i j a b' e g' => ?_
          simp only [upd_apply]
          by_cases e1 : i = r - 1 - row ∧ j = col
          · rw [if_pos e1, if_neg (by omega), if_pos (by omega)]
            obtain ⟨rfl, rfl⟩ := e1
            congr 1; omega
          · rw [if_neg e1]
            by_cases e2 : i = row ∧ j = col
            · rw [if_pos e2, if_neg (by omega), if_pos (by omega)]
              obtain ⟨rfl, rfl⟩ := e2; rfl
            · rw [if_neg e2]
              have : (i < row ∨ r - 1 - i < row ∨ (i = row ∨ r - 1 - i = row) ∧ j < col) ↔
                (i < row ∨ r - 1 - i < row ∨ (i = row ∨ r - 1 - i = row) ∧ j < col + 1) := by omega
              simp only [this])
      refine this.mono fun b hb => hb.congr fun i j h3 h4 h5 h6 => ?_
      have : (i < row ∨ r - 1 - i < row ∨ (i = row ∨ r - 1 - i = row) ∧ j < c) ↔ (i < row + 1 ∨ r - 1 - i < row + 1) := by omega
      simp only [this])
  refine this.mono fun b hb => hb.congr fun i j h3 h4 h5 h6 => ?_
  by_cases e : i < r / 2 ∨ r - 1 - i < r / 2
  · rw [if_pos e]
  · rw [if_neg e]; congr 1; omega

end EdgeEval.MatrixOps
