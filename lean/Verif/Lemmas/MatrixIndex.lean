import Verif.Lemmas.MatrixShape2
import Mathlib.Algebra.Order.Floor.Ring
import Mathlib.Data.Rat.Floor

namespace EdgeEval.MatrixOps

open EdgeEval.Sort (Arr)
open Spec.MatrixOps

variable {α : Type} {m : Mx α} {r c : ℤ} {f : ℤ → ℤ → α}

/-- A loop that fails at one of its steps, whatever happened before, fails. -/
theorem forUp_fails {σ : Type} {body : ℤ → σ → Except Fault σ} (I : ℤ → σ → Prop) (e : Fault) (k : Nat) (i0 : ℤ) (s : σ)
    (h0 : I i0 s) (t : ℤ) (hs : ∀ i s, i0 ≤ i → i < t → I i s → Post (body i s) (I (i + 1)) ∨ body i s = .error e)
    (ht : i0 ≤ t ∧ t < i0 + k) (hf : ∀ s, I t s → body t s = .error e) :
    forUp body k i0 s = .error e := by
  induction k generalizing i0 s with
  | zero => omega
  | succ k ih =>
    simp only [forUp]
    by_cases e1 : i0 = t
    · subst e1
      rw [hf s h0]; rfl
    · rcases hs i0 s le_rfl (by omega) h0 with ⟨s', h1, h2⟩ | h1
      · rw [h1]
        exact ih (i0 + 1) s' h2 (fun i s a b => hs i s (by omega) b) (by push_cast at ht; omega)
      · rw [h1]; rfl

theorem bind_err {β γ : Type} {x : Except Fault β} {k : β → Except Fault γ} {e : Fault} (h : x = .error e) : (x >>= k) = .error e := by
  subst h; rfl

theorem forUp_fails0 {σ : Type} {body : ℤ → σ → Except Fault σ} (I : ℤ → σ → Prop) (e : Fault) {n : ℤ} (s : σ)
    (h0 : I 0 s) (hs : ∀ i s, 0 ≤ i → i < n → I i s → Post (body i s) (I (i + 1)) ∨ body i s = .error e)
    (t : ℤ) (ht : 0 ≤ t ∧ t < n) (hf : ∀ s, I t s → body t s = .error e) :
    forUp body n.toNat 0 s = .error e :=
  forUp_fails I e n.toNat 0 s h0 t (fun i s a b => hs i s a (by omega)) (by omega) hf

/-! ### `find` -/

/-- The first `cnt` values of `w` list, in increasing order, exactly the positions below `n` where `v` is not zero. -/
def Lists (v : ℤ → ℚ) (n cnt : ℤ) (w : ℤ → ℤ) : Prop :=
  0 ≤ cnt ∧ cnt ≤ n ∧ (∀ a b, 0 ≤ a → a < b → b < cnt → w a < w b) ∧
    ∀ k, (0 ≤ k ∧ k < n ∧ v k ≠ 0) ↔ ∃ a, 0 ≤ a ∧ a < cnt ∧ w a = k

/-- The number of non-zeros among the first `n`. -/
def nzCount (v : ℤ → ℚ) : ℕ → ℤ
  | 0 => 0
  | n + 1 => if v n ≠ 0 then nzCount v n + 1 else nzCount v n

theorem nzCount_mono (v : ℤ → ℚ) (n : ℕ) (k : ℕ) : nzCount v n ≤ nzCount v (n + k) := by
  induction k with
  | zero => simp
  | succ k ih =>
    show _ ≤ nzCount v ((n + k) + 1)
    simp only [nzCount]
    split_ifs <;> omega

theorem nzCount_nonneg (v : ℤ → ℚ) (n : ℕ) : 0 ≤ nzCount v n := by
  have := nzCount_mono v 0 n
  simpa [nzCount] using this

theorem nzCount_step (v : ℤ → ℚ) {i : ℤ} (hi : 0 ≤ i) :
    nzCount v (i + 1).toNat = if v i ≠ 0 then nzCount v i.toNat + 1 else nzCount v i.toNat := by
  have e : (i + 1).toNat = i.toNat + 1 := by omega
  rw [e, nzCount, Int.toNat_of_nonneg hi]

theorem find_post (g : ℤ → ℚ) {a : Mx ℚ} {f : ℤ → ℤ → ℚ} (h : Is a r c f) :
    Post (find g a) fun b => ∃ cnt w, Lists (nth r f) (c * r) cnt w ∧ Is b cnt 1 (fun i _ => (w i : ℚ)) := by
  have hr := is_r0 h
  have hc := is_c0 h
  have hn : 0 ≤ c * r := by positivity
  unfold find
  rw [is_n h]
  have h1 := forUp_post0 (body := fun i (c : ℤ) => do
      let x ← rd a.data i
      pure (if x ≠ 0 then c + 1 else c))
    (fun i s => s = nzCount (nth r f) i.toNat) hn 0 (by simp [nzCount]) (by
      intro i s h1 h2 hs
      rw [cols_rdk h.data h1 h2]
      refine ⟨_, rfl, ?_⟩
      rw [nzCount_step _ h1, hs])
  refine h1.bind fun cnt hcnt => ?_
  have hcnt0 : 0 ≤ cnt := hcnt ▸ nzCount_nonneg _ _
  have hnew := new_is hcnt0 (show (0 : ℤ) ≤ 1 by omega) g
  have h2 := forUp_post0 (body := fun i (st : ℤ × Arr ℚ) => do
      let x ← rd a.data i
      if x ≠ 0 then
        if st.1 < cnt then do
          let d ← wr st.2 st.1 (i : ℚ)
          pure (st.1 + 1, d)
        else .error .assertion
      else pure st)
    (fun i st => st.1 = nzCount (nth r f) i.toNat ∧ st.2.size = cnt ∧ ∃ w : ℤ → ℤ, Lists (nth r f) i st.1 w ∧
      ∀ b, 0 ≤ b → b < st.1 → st.2.at_ b = (w b : ℚ)) hn (0, (newMx cnt 1 g).data)
    (by
      refine ⟨by simp [nzCount], by simpa using hnew.data.size, id, ⟨le_rfl, le_rfl, by intros; omega, ?_⟩, by intros; omega⟩
      intro k
      constructor
      · rintro ⟨a, b, _⟩; omega
      · rintro ⟨a, b, c, _⟩; omega) (by
      rintro i ⟨p, d⟩ h1 h2 ⟨h3, h4, w, ⟨w0, w1, w2, w3⟩, h6⟩
      simp only at h3 h4 h6 w0 w1 w2 w3
      rw [cols_rdk h.data h1 h2]
      simp only [bind, Except.bind]
      by_cases hz : nth r f i ≠ 0
      · have hlt : p < cnt := by
          have a1 := nzCount_mono (nth r f) (i + 1).toNat ((c * r).toNat - (i + 1).toNat)
          rw [show (i + 1).toNat + ((c * r).toNat - (i + 1).toNat) = (c * r).toNat by omega, ← hcnt, nzCount_step _ h1, if_pos hz, ← h3] at a1
          omega
        rw [if_pos hz, if_pos hlt]
        unfold wr
        rw [if_pos ⟨by omega, by rw [h4]; exact hlt⟩]
        refine ⟨_, rfl, ?_, h4, fun b => if b = p then i else w b, ⟨by simp only; omega, by simp only; omega, ?_, ?_⟩, ?_⟩
        · simp only
          rw [nzCount_step _ h1, if_pos hz, h3]
        · intro x y hx hxy hy
          simp only at hy ⊢
          have hlow : ∀ x, 0 ≤ x → x < p → w x < i := fun x a1 a2 => ((w3 (w x)).mpr ⟨x, a1, a2, rfl⟩).2.1
          by_cases e1 : y = p
          · rw [if_neg (by omega), if_pos e1]
            exact hlow x hx (by omega)
          · rw [if_neg (by omega), if_neg e1]
            exact w2 x y hx hxy (by omega)
        · intro k
          simp only
          constructor
          · rintro ⟨k1, k2, k3⟩
            by_cases e1 : k = i
            · exact ⟨p, w0, by omega, by simp [e1]⟩
            · obtain ⟨x, x1, x2, x3⟩ := (w3 k).mp ⟨k1, by omega, k3⟩
              exact ⟨x, x1, by omega, by rw [if_neg (by omega)]; exact x3⟩
          · rintro ⟨x, x1, x2, x3⟩
            by_cases e1 : x = p
            · rw [if_pos e1] at x3
              subst x3
              exact ⟨h1, by omega, hz⟩
            · rw [if_neg e1] at x3
              obtain ⟨y1, y2, y3⟩ := (w3 k).mpr ⟨x, x1, by omega, x3⟩
              exact ⟨y1, by omega, y3⟩
        · intro b b1 b2
          simp only at b2 ⊢
          by_cases e1 : b = p
          · simp [e1]
          · rw [if_neg e1, if_neg e1]
            exact h6 b b1 (by omega)
      · rw [if_neg hz]
        refine ⟨_, rfl, ?_, h4, w, ⟨w0, by simp only; omega, w2, ?_⟩, h6⟩
        · simp only
          rw [nzCount_step _ h1, if_neg hz, h3]
        · intro k
          rw [← w3 k]
          constructor
          · rintro ⟨k1, k2, k3⟩
            refine ⟨k1, ?_, k3⟩
            by_cases e1 : k = i
            · subst e1; exact absurd k3 hz
            · omega
          · rintro ⟨k1, k2, k3⟩
            exact ⟨k1, by omega, k3⟩)
  refine Post.bind h2 ?_
  rintro ⟨p, d⟩ ⟨h3, h4, w, h5, h6⟩
  simp only at h3 h4 h5 h6
  have hp : p = cnt := by rw [h3, hcnt]
  subst hp
  refine ⟨_, rfl, p, w, h5, hnew.rows, hnew.cols, hcnt0, by omega, ?_, fun i j a1 a2 a3 a4 => ?_⟩
  · simpa using h4
  · have : j = 0 := by omega
    subst this
    simpa using h6 i a1 a2

/-! ### `gather` and `scatter` -/

theorem gather_post (g : ℤ → α) {ind : Mx ℚ} {r' c' : ℤ} {q : ℤ → ℤ → ℚ} (h : Is m r c f) (hi : Is ind r' c' q)
    (hin : ∀ i j, 0 ≤ i → i < r' → 0 ≤ j → j < c' → 0 ≤ toInt (q i j) ∧ toInt (q i j) < c * r) :
    Returns (gather g m ind) r' c' (fun i j => nth r f (toInt (q i j))) := by
  have hr := is_r0 hi
  have hc := is_c0 hi
  have hn : 0 ≤ c' * r' := by positivity
  unfold gather
  rw [is_n hi, is_n h, hi.rows, hi.cols]
  have hz := new_is hr hc g
  have := forUp_post0 (body := fun i d => do
      let x ← rd ind.data i
      let index := toInt x
      if 0 ≤ index ∧ index < c * r then do
        let y ← rd m.data index
        wr d i y
      else .error .thrown)
    (fun i d => d.size = c' * r' ∧ ∀ k, 0 ≤ k → k < c' * r' → d.at_ k = if k < i then nth r f (toInt (nth r' q k)) else g k) hn
    (newMx r' c' g).data ⟨hz.data.size, fun k h1 h2 => by rw [if_neg (by omega)]; rfl⟩ (by
      rintro i d h1 h2 ⟨h3, h4⟩
      rw [cols_rdk hi.data h1 h2]
      simp only [bind, Except.bind]
      obtain ⟨a1, a2, a3, a4, a5⟩ := idx_split hr h1 h2
      obtain ⟨b1, b2⟩ := hin _ _ a1 a2 a3 a4
      have b1' : 0 ≤ toInt (nth r' q i) := b1
      have b2' : toInt (nth r' q i) < c * r := b2
      rw [if_pos ⟨b1', b2'⟩, cols_rdk h.data b1' b2']
      refine (cols_wrk h3 h4 h1 h2 _).mono fun d' hd' => ⟨hd'.1, fun k h5 h6 => ?_⟩
      rw [hd'.2 k h5 h6]
      by_cases e : k = i
      · rw [if_pos e, if_pos (by omega), e]
      · rw [if_neg e]
        exact if_congr (by omega) rfl rfl)
  refine this.bind fun d hd => ⟨_, rfl, hz.rows, hz.cols, cols_of_lin hr hc hd.1 fun k h1 h2 => ?_⟩
  rw [hd.2 k h1 h2, if_pos h2]; rfl

theorem gather_fails (g : ℤ → α) {ind : Mx ℚ} {r' c' : ℤ} {q : ℤ → ℤ → ℚ} (h : Is m r c f) (hi : Is ind r' c' q)
    {i j : ℤ} (h1 : 0 ≤ i) (h2 : i < r') (h3 : 0 ≤ j) (h4 : j < c') (hout : toInt (q i j) < 0 ∨ c * r ≤ toInt (q i j)) :
    gather g m ind = .error .thrown := by
  have hr := is_r0 hi
  have hc := is_c0 hi
  unfold gather
  rw [is_n hi, is_n h, hi.rows, hi.cols]
  have hz := new_is hr hc g
  have := forUp_fails0 (n := c' * r') (body := fun i d => do
      let x ← rd ind.data i
      let index := toInt x
      if 0 ≤ index ∧ index < c * r then do
        let y ← rd m.data index
        wr d i y
      else .error .thrown)
    (fun _ d => d.size = c' * r') .thrown (newMx r' c' g).data hz.data.size (by
      intro i d a1 a2 a3
      rw [cols_rdk hi.data a1 a2]
      simp only [bind, Except.bind]
      by_cases e : 0 ≤ toInt (nth r' q i) ∧ toInt (nth r' q i) < c * r
      · left
        rw [if_pos e, cols_rdk h.data e.1 e.2]
        simp only [wr]
        rw [if_pos ⟨a1, by omega⟩]
        exact ⟨_, rfl, a3⟩
      · right
        rw [if_neg e]) (j * r' + i) ⟨idx_nonneg hr h1 h3, idx_lt h1 h2 h4⟩ (by
      intro d _
      rw [cols_rd hi.data h1 h2 h3 h4]
      simp only [bind, Except.bind]
      rw [if_neg (by omega)])
  exact bind_err this

theorem scatter_post {ind : Mx ℚ} {val : Mx α} {r' c' r2 c2 : ℤ} {q : ℤ → ℤ → ℚ} {v : ℤ → ℤ → α} (h : Is m r c f)
    (hi : Is ind r' c' q) (hv : Is val r2 c2 v) (hn2 : c' * r' = c2 * r2)
    (hin : ∀ i j, 0 ≤ i → i < r' → 0 ≤ j → j < c' → 0 ≤ toInt (q i j) ∧ toInt (q i j) < c * r) :
    Post (scatter m ind val) fun b => ∃ f', Is b r c f' ∧
      (∀ k, 0 ≤ k → k < c * r → (∀ t, 0 ≤ t → t < c' * r' → toInt (nth r' q t) ≠ k) → nth r f' k = nth r f k) ∧
      (∀ t, 0 ≤ t → t < c' * r' → (∀ t', t < t' → t' < c' * r' → toInt (nth r' q t') ≠ toInt (nth r' q t)) →
        nth r f' (toInt (nth r' q t)) = nth r2 v t) := by
  have hr := is_r0 hi
  have hc := is_c0 hi
  have hn : 0 ≤ c' * r' := by positivity
  unfold scatter
  rw [is_n hi, is_n hv, if_neg (by omega), is_n h]
  have := forUp_post0 (body := fun i d => do
      let x ← rd ind.data i
      let index := toInt x
      if 0 ≤ index ∧ index < c * r then do
        let y ← rd val.data i
        wr d index y
      else .error .thrown)
    (fun i d => d.size = c * r ∧ (∀ k, 0 ≤ k → k < c * r → (∀ t, 0 ≤ t → t < i → toInt (nth r' q t) ≠ k) → d.at_ k = nth r f k) ∧
      (∀ t, 0 ≤ t → t < i → (∀ t', t < t' → t' < i → toInt (nth r' q t') ≠ toInt (nth r' q t)) →
        d.at_ (toInt (nth r' q t)) = nth r2 v t)) hn
    m.data ⟨h.data.size, fun k h1 h2 _ => cols_lin h.data h1 h2, by intros; omega⟩ (by
      rintro i d h1 h2 ⟨h3, h4, h5⟩
      rw [cols_rdk hi.data h1 h2]
      simp only [bind, Except.bind]
      obtain ⟨a1, a2, a3, a4, a5⟩ := idx_split hr h1 h2
      obtain ⟨b1, b2⟩ := hin _ _ a1 a2 a3 a4
      have b1' : 0 ≤ toInt (nth r' q i) := b1
      have b2' : toInt (nth r' q i) < c * r := b2
      rw [if_pos ⟨b1', b2'⟩, cols_rdk hv.data h1 (by omega)]
      simp only [wr]
      rw [if_pos ⟨b1', by omega⟩]
      refine ⟨_, rfl, h3, fun k k1 k2 k3 => ?_, fun t t1 t2 t3 => ?_⟩
      · simp only
        rw [if_neg (fun e => k3 i h1 (by omega) e.symm)]
        exact h4 k k1 k2 fun t t1 t2 => k3 t t1 (by omega)
      · simp only
        by_cases e : t = i
        · subst e; rw [if_pos rfl]
        · rw [if_neg (fun e' => t3 i (by omega) (by omega) e'.symm)]
          exact h5 t t1 (by omega) fun t' u1 u2 => t3 t' u1 (by omega))
  refine this.bind fun d hd => ⟨_, rfl, fun i j => d.at_ (j * r + i), ⟨h.rows, h.cols, is_r0 h, is_c0 h, hd.1, fun i j _ _ _ _ => rfl⟩, ?_, ?_⟩
  · intro k k1 k2 k3
    have := idx_split (is_r0 h) k1 k2
    show d.at_ _ = _
    rw [this.2.2.2.2]
    exact hd.2.1 k k1 k2 k3
  · intro t t1 t2 t3
    obtain ⟨a1, a2, a3, a4, a5⟩ := idx_split hr t1 t2
    obtain ⟨b1, b2⟩ := hin _ _ a1 a2 a3 a4
    have := idx_split (is_r0 h) b1 b2
    show d.at_ _ = _
    have e : (toInt (nth r' q t) / r) * r + toInt (nth r' q t) % r = toInt (nth r' q t) := this.2.2.2.2
    rw [e]
    exact hd.2.2 t t1 t2 t3

theorem scatter_fails {ind : Mx ℚ} {val : Mx α} {r' c' r2 c2 : ℤ} {q : ℤ → ℤ → ℚ} {v : ℤ → ℤ → α} (h : Is m r c f)
    (hi : Is ind r' c' q) (hv : Is val r2 c2 v) (hbad : c' * r' ≠ c2 * r2 ∨
      ∃ i j, 0 ≤ i ∧ i < r' ∧ 0 ≤ j ∧ j < c' ∧ (toInt (q i j) < 0 ∨ c * r ≤ toInt (q i j))) :
    scatter m ind val = .error .thrown := by
  have hr := is_r0 hi
  unfold scatter
  rw [is_n hi, is_n hv]
  by_cases hn2 : c' * r' ≠ c2 * r2
  · rw [if_pos hn2]
  · rcases hbad with hbad | ⟨i, j, h1, h2, h3, h4, hout⟩
    · exact absurd hbad hn2
    · rw [if_neg hn2, is_n h]
      have := forUp_fails0 (n := c' * r') (body := fun i d => do
          let x ← rd ind.data i
          let index := toInt x
          if 0 ≤ index ∧ index < c * r then do
            let y ← rd val.data i
            wr d index y
          else .error .thrown)
        (fun _ d => d.size = c * r) .thrown m.data h.data.size (by
          intro i d a1 a2 a3
          rw [cols_rdk hi.data a1 a2]
          simp only [bind, Except.bind]
          by_cases e : 0 ≤ toInt (nth r' q i) ∧ toInt (nth r' q i) < c * r
          · left
            rw [if_pos e, cols_rdk hv.data a1 (by omega)]
            simp only [wr]
            rw [if_pos ⟨e.1, by omega⟩]
            exact ⟨_, rfl, a3⟩
          · right
            rw [if_neg e]) (j * r' + i) ⟨idx_nonneg hr h1 h3, idx_lt h1 h2 h4⟩ (by
          intro d _
          rw [cols_rd hi.data h1 h2 h3 h4]
          simp only [bind, Except.bind]
          rw [if_neg (by omega)])
      exact bind_err this

/-! ### Subscripts -/

theorem toInt_cast (n : ℤ) : toInt (n : ℚ) = n := by
  unfold toInt; split_ifs <;> simp

theorem ind2sub_post {siz ind : Mx ℚ} {r0 c0 : ℤ} {s q : ℤ → ℤ → ℚ} (hs : Is siz r0 c0 s) (h2 : c0 * r0 = 2) (hi : Is ind r c q)
    (hrows : 0 < toInt (nth r0 s 0)) (hpos : ∀ i j, 0 ≤ i → i < r → 0 ≤ j → j < c → 0 ≤ toInt (q i j)) :
    Post (ind2sub siz ind) fun p =>
      Is p.1 r c (fun i j => ((toInt (q i j) % toInt (nth r0 s 0) : ℤ) : ℚ)) ∧
      Is p.2 r c (fun i j => ((toInt (q i j) / toInt (nth r0 s 0) : ℤ) : ℚ)) := by
  have hr := is_r0 hi
  have hc := is_c0 hi
  have hn : 0 ≤ c * r := by positivity
  unfold ind2sub
  rw [is_n hs, if_neg (by omega), get1_ok hs le_rfl (by omega)]
  simp only [bind, Except.bind]
  rw [is_n hi, hi.rows, hi.cols]
  have hz := new_is hr hc fun _ => (0 : ℚ)
  have := forUp_post0 (body := fun index (st : Arr ℚ × Arr ℚ) => do
      let x ← rd ind.data index
      if toInt (nth r0 s 0) = 0 then .error .divZero
      else do
        let di ← wr st.1 index ((toInt x).tmod (toInt (nth r0 s 0)) : ℤ)
        let dj ← wr st.2 index ((toInt x).tdiv (toInt (nth r0 s 0)) : ℤ)
        pure (di, dj))
    (fun i st => (st.1.size = c * r ∧ ∀ k, 0 ≤ k → k < c * r → st.1.at_ k = if k < i then ((toInt (nth r q k) % toInt (nth r0 s 0) : ℤ) : ℚ) else 0) ∧
      (st.2.size = c * r ∧ ∀ k, 0 ≤ k → k < c * r → st.2.at_ k = if k < i then ((toInt (nth r q k) / toInt (nth r0 s 0) : ℤ) : ℚ) else 0)) hn
    ((newMx r c fun _ => (0 : ℚ)).data, (newMx r c fun _ => (0 : ℚ)).data)
    ⟨⟨hz.data.size, fun k h1 h2 => by rw [if_neg (by omega)]; rfl⟩, ⟨hz.data.size, fun k h1 h2 => by rw [if_neg (by omega)]; rfl⟩⟩ (by
      rintro i ⟨d, e⟩ h1 h2 ⟨⟨h3, h4⟩, h5, h6⟩
      rw [cols_rdk hi.data h1 h2]
      simp only [bind, Except.bind] at *
      rw [if_neg (by omega)]
      obtain ⟨a1, a2, a3, a4, a5⟩ := idx_split hr h1 h2
      have hp : 0 ≤ toInt (nth r q i) := hpos _ _ a1 a2 a3 a4
      rw [Int.tmod_eq_emod_of_nonneg hp, Int.tdiv_eq_ediv_of_nonneg hp]
      refine (cols_wrk h3 h4 h1 h2 _).bind fun d' hd' => ?_
      refine (cols_wrk h5 h6 h1 h2 _).bind fun e' he' => ?_
      refine ⟨_, rfl, ⟨hd'.1, fun k b1 b2 => ?_⟩, he'.1, fun k b1 b2 => ?_⟩
      · simp only
        rw [hd'.2 k b1 b2]
        by_cases e : k = i
        · rw [if_pos e, if_pos (by omega), e]
        · rw [if_neg e]
          exact if_congr (by omega) rfl rfl
      · simp only
        rw [he'.2 k b1 b2]
        by_cases e : k = i
        · rw [if_pos e, if_pos (by omega), e]
        · rw [if_neg e]
          exact if_congr (by omega) rfl rfl)
  refine Post.bind this ?_
  rintro ⟨d, e⟩ ⟨⟨h3, h4⟩, h5, h6⟩
  refine ⟨_, rfl, ⟨hz.rows, hz.cols, cols_of_lin hr hc h3 fun k h1 h2 => ?_⟩, hz.rows, hz.cols, cols_of_lin hr hc h5 fun k h1 h2 => ?_⟩
  · rw [h4 k h1 h2, if_pos h2]; rfl
  · rw [h6 k h1 h2, if_pos h2]; rfl

theorem sub2ind_post {siz a b : Mx ℚ} {r0 c0 : ℤ} {s p q : ℤ → ℤ → ℚ} (hs : Is siz r0 c0 s) (h2 : c0 * r0 = 2)
    (ha : Is a r c p) (hb : Is b r c q) :
    Returns (sub2ind siz a b) r c (fun i j => ((toInt (p i j) * toInt (nth r0 s 0) + toInt (p i j) : ℤ) : ℚ)) := by
  have hr := is_r0 ha
  have hc := is_c0 ha
  have hn : 0 ≤ c * r := by positivity
  unfold sub2ind
  rw [is_n hs, if_neg (by omega), get1_ok hs le_rfl (by omega), ha.rows, ha.cols, hb.rows, hb.cols, if_neg (by simp)]
  simp only [bind, Except.bind]
  have hz := new_is hr hc fun _ => (0 : ℚ)
  rw [is_n hz]
  have := forUp_post0 (body := fun index d => do
      let x ← rd a.data index
      let y ← rd a.data index
      wr d index ((toInt y * toInt (nth r0 s 0) + toInt x : ℤ) : ℚ))
    (fun i d => d.size = c * r ∧ ∀ k, 0 ≤ k → k < c * r → d.at_ k = if k < i then
      ((toInt (nth r p k) * toInt (nth r0 s 0) + toInt (nth r p k) : ℤ) : ℚ) else 0) hn
    (newMx r c fun _ => (0 : ℚ)).data ⟨hz.data.size, fun k h1 h2 => by rw [if_neg (by omega)]; rfl⟩ (by
      rintro i d h1 h2 ⟨h3, h4⟩
      rw [cols_rdk ha.data h1 h2]
      refine (cols_wrk h3 h4 h1 h2 _).mono fun d' hd' => ⟨hd'.1, fun k b1 b2 => ?_⟩
      rw [hd'.2 k b1 b2]
      by_cases e : k = i
      · rw [if_pos e, if_pos (by omega), e]
      · rw [if_neg e]
        exact if_congr (by omega) rfl rfl)
  refine this.bind fun d hd => ⟨_, rfl, hz.rows, hz.cols, cols_of_lin hr hc hd.1 fun k h1 h2 => ?_⟩
  rw [hd.2 k h1 h2, if_pos h2]; rfl

/-! ### Submatrices -/

theorem extract_post (zero : α) (h : Is m r c f) {r1 r2 c1 c2 : ℤ} (a1 : 0 ≤ r1) (a2 : r1 ≤ r2) (a3 : r2 < r) (b1 : 0 ≤ c1)
    (b2 : c1 ≤ c2) (b3 : c2 < c) :
    Returns (extract zero m r1 r2 c1 c2) (r2 - r1 + 1) (c2 - c1 + 1) (fun i j => f (r1 + i) (c1 + j)) := by
  have hr := is_r0 h
  unfold extract
  rw [if_neg (by unfold badRange; rw [h.rows, h.cols]; omega), if_pos a2, if_pos b2]
  simp only
  have hz := new_is (show 0 ≤ r2 - r1 + 1 by omega) (show 0 ≤ c2 - c1 + 1 by omega) (fun _ => zero)
  generalize hR : r2 - r1 + 1 = R at hz ⊢
  generalize hC : c2 - c1 + 1 = C at hz ⊢
  have := forUp_post0 (body := fun col d => do
      let p ← at2 (newMx R C fun _ => zero) 0 col
      let q ← at2 m r1 (c1 + col)
      memcpy d p m.data q R)
    (fun t d => Cols d R C (fun i j => if j < t then f (r1 + i) (c1 + j) else zero)) (show 0 ≤ C by omega) (newMx R C fun _ => zero).data
    (hz.data.congr fun i j h1 h2 h3 h4 => by rw [if_neg (by omega)]) (by
      intro t d h1 h2 hd
      rw [at2_ok hz le_rfl (by omega) h1 h2]
      simp only [bind, Except.bind]
      rw [at2_ok h a1 (by omega) (by omega) (by omega)]
      simp only
      refine (memcpy_post (by omega) fun _ => ?_).mono fun d' hd' => ⟨by omega, by omega, by rw [hd'.1, hd.size], fun i j i1 i2 i3 i4 => ?_⟩
      · rw [hd.size, h.data.size]
        have e1 : t * R + R ≤ C * R := by
          have : (t + 1) * R ≤ C * R := mul_le_mul_of_nonneg_right (by omega) (by omega)
          linarith
        have e2 : (c1 + t) * r + r ≤ c * r := by
          have : (c1 + t + 1) * r ≤ c * r := mul_le_mul_of_nonneg_right (by omega) (by omega)
          linarith
        have e3 : 0 ≤ t * R := mul_nonneg h1 (by omega)
        have e4 : 0 ≤ (c1 + t) * r := mul_nonneg (by omega) hr
        refine ⟨?_, ?_, ?_, ?_⟩ <;> omega
      · rw [hd'.2]
        by_cases e : j = t
        · subst e
          rw [if_pos (by omega), if_pos (by omega), ← h.data.entry (r1 + i) (c1 + j) (by omega) (by omega) (by omega) (by omega)]
          congr 1; ring
        · rw [if_neg, hd.entry i j i1 i2 i3 i4]
          · exact if_congr (by omega) rfl rfl
          · rintro ⟨u1, u2⟩
            have u3 : j * R + i = t * R + (j * R + i - t * R) := by ring
            have := (idx_inj i1 i2 (by omega) (by omega)).mp u3
            exact e this.2)
  refine this.bind fun d hd => ⟨_, rfl, hz.rows, hz.cols, hd.congr fun i j h1 h2 h3 h4 => by rw [if_pos h4]⟩

theorem insert_post {s : Mx α} {rs cs : ℤ} {fs : ℤ → ℤ → α} (h : Is m r c f) (hs : Is s rs cs fs) {r1 r2 c1 c2 : ℤ} (a1 : 0 ≤ r1)
    (a2 : r1 ≤ r2) (a3 : r2 < r) (b1 : 0 ≤ c1) (b2 : c1 ≤ c2) (b3 : c2 < c) (hrs : r2 - r1 + 1 ≤ rs) (hcs : c2 - c1 + 1 ≤ cs) :
    Returns (insert m s r1 r2 c1 c2) r c
      (fun i j => if r1 ≤ i ∧ i ≤ r2 ∧ c1 ≤ j ∧ j ≤ c2 then fs (i - r1) (j - c1) else f i j) := by
  have hr := is_r0 h
  have hc := is_c0 h
  have hr0 := is_r0 hs
  unfold insert
  rw [if_neg (by unfold badRange; rw [h.rows, h.cols]; omega), if_pos a2, if_pos b2]
  simp only
  generalize hR : r2 - r1 + 1 = R at hrs ⊢
  generalize hC : c2 - c1 + 1 = C at hcs ⊢
  have := forUp_post0 (body := fun col d => do
      let p ← at2 m r1 (c1 + col)
      let q ← at2 s 0 col
      memcpy d p s.data q R)
    (fun t d => Cols d r c (fun i j => if (r1 ≤ i ∧ i ≤ r2 ∧ c1 ≤ j ∧ j ≤ c2) ∧ j < c1 + t then fs (i - r1) (j - c1) else f i j))
    (show 0 ≤ C by omega) m.data
    (h.data.congr fun i j h1 h2 h3 h4 => by rw [if_neg (by omega)]) (by
      intro t d h1 h2 hd
      rw [at2_ok h a1 (by omega) (by omega) (by omega)]
      simp only [bind, Except.bind]
      rw [at2_ok hs le_rfl (by omega) h1 (by omega)]
      simp only
      refine (memcpy_post (by omega) fun _ => ?_).mono fun d' hd' => ⟨hr, hc, by rw [hd'.1, hd.size], fun i j i1 i2 i3 i4 => ?_⟩
      · rw [hd.size, hs.data.size]
        have e1 : t * rs + rs ≤ cs * rs := by
          have : (t + 1) * rs ≤ cs * rs := mul_le_mul_of_nonneg_right (by omega) (by omega)
          linarith
        have e2 : (c1 + t) * r + r ≤ c * r := by
          have : (c1 + t + 1) * r ≤ c * r := mul_le_mul_of_nonneg_right (by omega) (by omega)
          linarith
        have e3 : 0 ≤ t * rs := mul_nonneg h1 (by omega)
        have e4 : 0 ≤ (c1 + t) * r := mul_nonneg (by omega) hr
        refine ⟨?_, ?_, ?_, ?_⟩ <;> omega
      · rw [hd'.2]
        by_cases e : j = c1 + t ∧ r1 ≤ i ∧ i ≤ r2
        · obtain ⟨rfl, e1, e2⟩ := e
          rw [if_pos (by omega), if_pos (by omega), show c1 + t - c1 = t by ring,
            ← hs.data.entry (i - r1) t (by omega) (by omega) (by omega) (by omega)]
          congr 1; ring
        · rw [if_neg, hd.entry i j i1 i2 i3 i4]
          · exact if_congr (by omega) rfl rfl
          · rintro ⟨u1, u2⟩
            have u3 : j * r + i = (c1 + t) * r + (j * r + i - (c1 + t) * r) := by ring
            have := (idx_inj i1 i2 (by omega) (by omega)).mp u3
            omega)
  refine this.bind fun d hd => ⟨_, rfl, h.rows, h.cols, hd.congr fun i j h1 h2 h3 h4 => if_congr (by omega) rfl rfl⟩

end EdgeEval.MatrixOps
