import Verif.Lemmas.Sort

/-! The two selection sorts and the median of three. -/

namespace EdgeEval.Sort

open Spec.Sort

variable {α : Type}

theorem _root_.EdgeEval.Spec.Sort.Orders.le_of_ge {cmp : α → α → ℤ} (h : Orders cmp) {x y : α} (e : 0 ≤ cmp x y) : cmp y x ≤ 0 := by
  have h1 := h.flip x y
  omega

theorem sw_self (a : Arr α) (i : ℤ) : a.sw i i = a := by
  cases a with | mk n f => ?_
  simp only [Arr.sw, Arr.mk.injEq, true_and]
  funext k
  by_cases hk : k = i <;> simp [hk]

theorem sel1Min_post (cmp : α → α → ℤ) (a : Arr α) (i hi : ℤ) (h0 : 0 ≤ i) (hih : i < hi) (hh : hi ≤ a.size) :
    Post (forUp (fun j m => sel1Min cmp a j m) (hi - (i + 1)).toNat (i + 1) i) fun m => i ≤ m ∧ m < hi ∧
      (Orders cmp → ∀ k, i ≤ k → k < hi → cmp (a.at_ m) (a.at_ k) ≤ 0) := by
  have key := forUp_post (body := fun j m => sel1Min cmp a j m)
    (fun j m => i ≤ m ∧ m < j ∧ (Orders cmp → ∀ k, i ≤ k → k < j → cmp (a.at_ m) (a.at_ k) ≤ 0)) (hi - (i + 1)).toNat (i + 1) i
    ⟨le_rfl, by omega, fun ho k h1 h2 => by
      have : k = i := by omega
      rw [this]
      exact (ho.refl _).le⟩ ?_
  · have e : i + 1 + ((hi - (i + 1)).toNat : ℤ) = hi := by omega
    rw [e] at key
    exact key
  · rintro j m h1 h2 ⟨h3, h4, h5⟩
    unfold sel1Min
    rw [sortCmp_eq cmp a (by unfold Arr.In; omega) (by unfold Arr.In; omega)]
    simp only [bind, Except.bind]
    split_ifs with hc
    · refine Post.pure ⟨by omega, by omega, fun ho k hk1 hk2 => ?_⟩
      by_cases e : k = j
      · rw [e]; exact (ho.refl _).le
      · exact ho.trans _ _ _ hc.le (h5 ho k hk1 (by omega))
    · refine Post.pure ⟨h3, by omega, fun ho k hk1 hk2 => ?_⟩
      by_cases e : k = j
      · rw [e]; exact ho.le_of_ge (by omega)
      · exact h5 ho k hk1 (by omega)

/-- The elements before `i` are in their final place. -/
def Low (cmp : α → α → ℤ) (a : Arr α) (lo hi i : ℤ) : Prop :=
  ∀ p q, lo ≤ p → p < i → p < q → q < hi → cmp (a.at_ p) (a.at_ q) ≤ 0

theorem selectionSort1_post (cmp : α → α → ℤ) (start n : ℤ) (a : Arr α) (h0 : 0 ≤ start) (hh : start + n ≤ a.size) :
    Post (selectionSort1 cmp start n a) fun b => Re a b start (start + n) ∧
      (Orders cmp → Increasing cmp b.at_ start (start + n)) := by
  unfold selectionSort1
  refine (forUp_post (fun i b => Re a b start (start + n) ∧ (Orders cmp → Low cmp b start (start + n) i)) (n - 1).toNat start a
    ⟨Re.refl _ _ _, fun _ p q h1 h2 => by omega⟩ ?_).mono ?_
  · rintro i b h1 h2 ⟨bR, bL⟩
    have bsz := bR.1
    have hd : Post (if i > start then do
        let c ← sortCmp cmp b i (i - 1)
        pure (decide (c = 0))
      else .ok false) fun d => d = true → i > start ∧ cmp (b.at_ i) (b.at_ (i - 1)) = 0 := by
      split_ifs with hi
      · rw [sortCmp_eq cmp b (by unfold Arr.In; omega) (by unfold Arr.In; omega)]
        exact ⟨_, rfl, fun h => ⟨hi, by simpa using h⟩⟩
      · exact ⟨_, rfl, by simp⟩
    refine hd.bind ?_
    intro d hd'
    cases d with
    | true =>
      obtain ⟨hi, hz⟩ := hd' rfl
      refine ⟨b, rfl, bR, fun ho p q h3 h4 h5 h6 => ?_⟩
      by_cases e : p = i
      · subst e
        exact ho.trans _ _ _ hz.le (bL ho (p - 1) q (by omega) (by omega) (by omega) h6)
      · exact bL ho p q h3 (by omega) h5 h6
    | false =>
      simp only [Bool.false_eq_true, if_false]
      refine (sel1Min_post cmp b i (start + n) (by omega) (by omega) (by omega)).bind ?_
      rintro m ⟨m1, m2, m3⟩
      have hsw : (if m > i then sortSwap b i m else pure b) = Except.ok (b.sw i m) := by
        split_ifs with hm
        · exact sortSwap_eq b (by unfold Arr.In; omega) (by unfold Arr.In; omega)
        · have : m = i := by omega
          rw [this, sw_self]; rfl
      rw [hsw]
      have hR : Re b (b.sw i m) i (start + n) := Re.sw b (by omega) (by omega) (by omega) (by omega)
      refine Post.pure ⟨bR.trans (hR.widen (by omega) le_rfl), fun ho p q h3 h4 h5 h6 => ?_⟩
      by_cases e : p = i
      · subst e
        have e1 : (b.sw p m).at_ p = b.at_ m := by
          simp only [Arr.sw]
          by_cases hpm : p = m <;> simp [hpm]
        rw [e1]
        exact hR.all (P := fun x => cmp (b.at_ m) x ≤ 0) (m3 ho) q (by omega) h6
      · rw [hR.out (i := p) (by omega)]
        by_cases e2 : q < i
        · rw [hR.out (i := q) (by omega)]
          exact bL ho p q h3 (by omega) h5 h6
        · exact hR.all (P := fun x => cmp (b.at_ p) x ≤ 0) (fun k hk1 hk2 => bL ho p k h3 (by omega) (by omega) hk2) q
            (by omega) h6
  · rintro b ⟨bR, bL⟩
    exact ⟨bR, fun ho p q h1 h2 h3 => bL ho p q h1 (by omega) h2 h3⟩

theorem sel2Step_post (cmp : α → α → ℤ) (a : Arr α) (i j : ℤ) (h0 : 0 ≤ i) (hij : i ≤ j) (hh : j < a.size) :
    Post (forUp (sel2Step cmp a) (j - i).toNat (i + 1) (i, i)) fun m => (i ≤ m.1 ∧ m.1 ≤ j) ∧ (i ≤ m.2 ∧ m.2 ≤ j) ∧
      (Orders cmp → ∀ k, i ≤ k → k ≤ j → cmp (a.at_ m.1) (a.at_ k) ≤ 0 ∧ cmp (a.at_ k) (a.at_ m.2) ≤ 0) := by
  have key := forUp_post (body := sel2Step cmp a)
    (fun j m => (i ≤ m.1 ∧ m.1 < j) ∧ (i ≤ m.2 ∧ m.2 < j) ∧
      (Orders cmp → ∀ k, i ≤ k → k < j → cmp (a.at_ m.1) (a.at_ k) ≤ 0 ∧ cmp (a.at_ k) (a.at_ m.2) ≤ 0)) (j - i).toNat (i + 1) (i, i)
    ⟨⟨le_rfl, by simp⟩, ⟨le_rfl, by simp⟩, fun ho k h1 h2 => by
      have : k = i := by omega
      rw [this]
      exact ⟨(ho.refl _).le, (ho.refl _).le⟩⟩ ?_
  · have e : i + 1 + ((j - i).toNat : ℤ) = j + 1 := by omega
    rw [e] at key
    refine key.mono fun m ⟨h1, h2, h3⟩ => ⟨by omega, by omega, fun ho k hk1 hk2 => h3 ho k hk1 (by omega)⟩
  · rintro k ⟨m, m'⟩ h1 h2 ⟨h3, h4, h5⟩
    simp only at h3 h4 h5
    unfold sel2Step
    rw [sortCmp_eq cmp a (by unfold Arr.In; omega) (by unfold Arr.In; simp only; omega),
      sortCmp_eq cmp a (by unfold Arr.In; omega) (by unfold Arr.In; simp only; omega)]
    refine ⟨_, rfl, ?_, ?_, ?_⟩
    · simp only; split_ifs <;> omega
    · simp only; split_ifs <;> omega
    · intro ho l hl1 hl2
      have hmm := h5 ho m (by omega) (by omega)
      simp only
      constructor
      · split_ifs with hc
        · by_cases e : l = k
          · rw [e]; exact (ho.refl _).le
          · exact ho.trans _ _ _ hc.le (h5 ho l hl1 (by omega)).1
        · by_cases e : l = k
          · rw [e]; exact ho.le_of_ge (by omega)
          · exact (h5 ho l hl1 (by omega)).1
      · split_ifs with hc
        · by_cases e : l = k
          · rw [e]; exact (ho.refl _).le
          · exact ho.trans _ _ _ (h5 ho l hl1 (by omega)).2 (ho.le_of_ge (by omega))
        · by_cases e : l = k
          · rw [e]; omega
          · exact (h5 ho l hl1 (by omega)).2

theorem sel2Place_post (a : Arr α) (i j m m' : ℤ) (h0 : 0 ≤ i) (hh : j < a.size) (hm : i ≤ m ∧ m ≤ j) (hm' : i ≤ m' ∧ m' ≤ j)
    (hne : m ≠ m') :
    Post (sel2Place a i j m m') fun b => Re a b i (j + 1) ∧ b.at_ i = a.at_ m ∧ b.at_ j = a.at_ m' := by
  unfold sel2Place
  have h1 : Post (if m > m' then do
      let a' ← sortSwap a m m'
      pure (a', m', m)
    else .ok (a, m, m')) fun t => Re a t.1 i (j + 1) ∧ (i ≤ t.2.1 ∧ t.2.1 < t.2.2 ∧ t.2.2 ≤ j) ∧
      t.1.at_ t.2.1 = a.at_ m ∧ t.1.at_ t.2.2 = a.at_ m' := by
    split_ifs with hc
    · rw [sortSwap_eq a (by unfold Arr.In; omega) (by unfold Arr.In; omega)]
      refine ⟨_, rfl, Re.sw a (by omega) (by omega) (by omega) (by omega), by simp only; omega, ?_, ?_⟩
      · simp [Arr.sw]
      · simp [Arr.sw, hne]
    · exact ⟨_, rfl, Re.refl _ _ _, by simp only; omega, rfl, rfl⟩
  refine h1.bind ?_
  rintro ⟨b, p, q⟩ ⟨bR, bpq, b1, b2⟩
  simp only at bR bpq b1 b2
  have bsz := bR.1
  have hsw : (if p > i then sortSwap b i p else .ok b) = Except.ok (b.sw i p) := by
    split_ifs with hm
    · exact sortSwap_eq b (by unfold Arr.In; omega) (by unfold Arr.In; omega)
    · have : p = i := by omega
      rw [this, sw_self]
  simp only [hsw, bind, Except.bind]
  have hR2 : Re b (b.sw i p) i (j + 1) := Re.sw b (by omega) (by omega) (by omega) (by omega)
  have hsz2 := hR2.1
  have hsw2 : (if q < j then sortSwap (b.sw i p) j q else .ok (b.sw i p)) = Except.ok ((b.sw i p).sw j q) := by
    split_ifs with hm
    · exact sortSwap_eq _ (by unfold Arr.In; omega) (by unfold Arr.In; omega)
    · have : q = j := by omega
      rw [this, sw_self]
  rw [hsw2]
  refine Post.pure ⟨(bR.trans hR2).trans (Re.sw _ (by omega) (by omega) (by omega) (by omega)), ?_, ?_⟩
  · rw [← b1]
    simp only [Arr.sw]
    rw [if_neg (by omega), if_neg (by omega)]
    by_cases e : i = p <;> simp [e]
  · rw [← b2]
    simp only [Arr.sw]
    by_cases e : j = q
    · rw [if_pos e, if_neg (by omega), if_neg (by omega), e]
    · simp [e, show q ≠ p by omega, show q ≠ i by omega]

/-- The elements after `j` are in their final place. -/
def High (cmp : α → α → ℤ) (a : Arr α) (lo hi j : ℤ) : Prop :=
  ∀ p q, lo ≤ p → p < q → j < q → q < hi → cmp (a.at_ p) (a.at_ q) ≤ 0

theorem sel2Loop_post (cmp : α → α → ℤ) (start n : ℤ) (f : Nat) (i j : ℤ) (a : Arr α) (h0 : 0 ≤ start) (hh : start + n ≤ a.size)
    (hi : start ≤ i) (hj : j < start + n) (hf : (j - i).toNat < f) :
    Post (sel2Loop cmp start n f i j a) fun b => Re a b start (start + n) ∧
      (Orders cmp → Low cmp a start (start + n) i → High cmp a start (start + n) j → Increasing cmp b.at_ start (start + n)) := by
  induction f generalizing i j a with
  | zero => omega
  | succ f ih =>
    unfold sel2Loop
    by_cases hij : i < j
    · rw [if_pos hij]
      have hd : Post (if i > start then do
          let c ← sortCmp cmp a i (i - 1)
          pure (decide (c = 0))
        else .ok false) fun d => d = true → i > start ∧ cmp (a.at_ i) (a.at_ (i - 1)) = 0 := by
        split_ifs with hi
        · rw [sortCmp_eq cmp a (by unfold Arr.In; omega) (by unfold Arr.In; omega)]
          exact ⟨_, rfl, fun h => ⟨hi, by simpa using h⟩⟩
        · exact ⟨_, rfl, by simp⟩
      refine hd.bind ?_
      intro d hd'
      cases d with
      | true =>
        simp only [if_true]
        obtain ⟨_, hz⟩ := hd' rfl
        refine (ih (i + 1) j a hh (by omega) hj (by omega)).mono fun b hb => ⟨hb.1, fun ho hL hH => hb.2 ho ?_ hH⟩
        intro p q h1 h2 h3 h4
        by_cases e : p = i
        · subst e
          exact ho.trans _ _ _ hz.le (hL (p - 1) q (by omega) (by omega) (by omega) h4)
        · exact hL p q h1 (by omega) h3 h4
      | false =>
        simp only [Bool.false_eq_true, if_false]
        have hd : Post (if j < start + n - 1 then do
            let c ← sortCmp cmp a j (j + 1)
            pure (decide (c = 0))
          else .ok false) fun d => d = true → j < start + n - 1 ∧ cmp (a.at_ j) (a.at_ (j + 1)) = 0 := by
          split_ifs with hi
          · rw [sortCmp_eq cmp a (by unfold Arr.In; omega) (by unfold Arr.In; omega)]
            exact ⟨_, rfl, fun h => ⟨hi, by simpa using h⟩⟩
          · exact ⟨_, rfl, by simp⟩
        refine hd.bind ?_
        intro d hd'
        cases d with
        | true =>
          simp only [if_true]
          obtain ⟨_, hz⟩ := hd' rfl
          refine (ih i (j - 1) a hh hi (by omega) (by omega)).mono fun b hb => ⟨hb.1, fun ho hL hH => hb.2 ho hL ?_⟩
          intro p q h1 h2 h3 h4
          by_cases e : q = j
          · subst e
            exact ho.trans _ _ _ (hH p (q + 1) h1 (by omega) (by omega) (by omega)) (ho.zero hz).le
          · exact hH p q h1 h2 (by omega) h4
        | false =>
          simp only [Bool.false_eq_true, if_false]
          refine (sel2Step_post cmp a i j (by omega) hij.le (by omega)).bind ?_
          rintro ⟨m, m'⟩ ⟨m1, m2, m3⟩
          simp only at m1 m2 m3 ⊢
          split_ifs with he
          · refine Post.pure ⟨Re.refl _ _ _, fun ho hL hH p q h1 h2 h3 => ?_⟩
            by_cases c1 : p < i
            · exact hL p q h1 c1 h2 h3
            · by_cases c2 : j < q
              · exact hH p q h1 h2 c2 h3
              · have k1 := (m3 ho p (by omega) (by omega)).2
                have k2 := (m3 ho q (by omega) (by omega)).1
                rw [← he] at k1
                exact ho.trans _ _ _ k1 k2
          · refine (sel2Place_post a i j m m' (by omega) (by omega) m1 m2 he).bind ?_
            rintro b ⟨bR, b1, b2⟩
            have bsz := bR.1
            refine (ih (i + 1) (j - 1) b (by omega) (by omega) (by omega) (by omega)).mono ?_
            rintro c ⟨cR, cI⟩
            refine ⟨(bR.widen (by omega) (by omega)).trans cR, fun ho hL hH => cI ho ?_ ?_⟩
            · intro p q h1 h2 h3 h4
              by_cases e : p = i
              · rw [e, b1]
                by_cases c2 : q ≤ j
                · exact bR.all (P := fun x => cmp (a.at_ m) x ≤ 0) (fun k hk1 hk2 => (m3 ho k hk1 (by omega)).1) q (by omega) (by omega)
                · rw [bR.out (by omega)]
                  exact hH m q (by omega) (by omega) (by omega) h4
              · rw [bR.out (i := p) (by omega)]
                by_cases c2 : i ≤ q ∧ q ≤ j
                · exact bR.all (P := fun x => cmp (a.at_ p) x ≤ 0) (fun k hk1 hk2 => hL p k h1 (by omega) (by omega) (by omega)) q (by omega) (by omega)
                · rw [bR.out (i := q) (by omega)]
                  exact hL p q h1 (by omega) h3 h4
            · intro p q h1 h2 h3 h4
              by_cases e : q = j
              · rw [e, b2]
                by_cases c2 : i ≤ p
                · exact bR.all (P := fun x => cmp x (a.at_ m') ≤ 0) (fun k hk1 hk2 => (m3 ho k hk1 (by omega)).2) p (by omega) (by omega)
                · rw [bR.out (by omega)]
                  exact hL p m' h1 (by omega) (by omega) (by omega)
              · rw [bR.out (i := q) (by omega)]
                by_cases c2 : i ≤ p ∧ p ≤ j
                · exact bR.all (P := fun x => cmp x (a.at_ q) ≤ 0) (fun k hk1 hk2 => hH k q (by omega) (by omega) (by omega) h4) p (by omega) (by omega)
                · rw [bR.out (i := p) (by omega)]
                  exact hH p q h1 h2 (by omega) h4
    · rw [if_neg hij]
      refine Post.pure ⟨Re.refl _ _ _, fun ho hL hH p q h1 h2 h3 => ?_⟩
      by_cases c1 : p < i
      · exact hL p q h1 c1 h2 h3
      · exact hH p q h1 h2 (by omega) h3

theorem selectionSort2_post (cmp : α → α → ℤ) (start n : ℤ) (F : Nat) (a : Arr α) (h0 : 0 ≤ start) (hh : start + n ≤ a.size)
    (hF : n < F) (hF0 : 0 < F) :
    Post (selectionSort2 F cmp start n a) fun b => Re a b start (start + n) ∧
      (Orders cmp → Increasing cmp b.at_ start (start + n)) := by
  unfold selectionSort2
  refine (sel2Loop_post cmp start n F start (start + n - 1) a h0 hh le_rfl (by omega) (by omega)).mono fun b hb => ⟨hb.1, fun ho => hb.2 ho ?_ ?_⟩
  · intro p q h1 h2; omega
  · intro p q h1 h2 h3 h4; omega

theorem median3_median (cmp : α → α → ℤ) (ho : Orders cmp) (a : Arr α) (x y z : ℤ) (hx : a.In x) (hy : a.In y) (hz : a.In z) :
    Post (median3 cmp a x y z) fun m => ∃ p q, [p, m, q].Perm [x, y, z] ∧
      cmp (a.at_ p) (a.at_ m) ≤ 0 ∧ cmp (a.at_ m) (a.at_ q) ≤ 0 := by
  have f1 := ho.flip (a.at_ x) (a.at_ y)
  have f2 := ho.flip (a.at_ y) (a.at_ x)
  have f3 := ho.flip (a.at_ x) (a.at_ z)
  have f4 := ho.flip (a.at_ z) (a.at_ x)
  have f5 := ho.flip (a.at_ z) (a.at_ y)
  have f6 := ho.flip (a.at_ y) (a.at_ z)
  have p1 : [z, y, x].Perm [x, y, z] := ((List.Perm.swap y z [x]).trans ((List.Perm.swap x z []).cons y)).trans (List.Perm.swap x y [z])
  have p2 : [y, z, x].Perm [x, y, z] := ((List.Perm.swap x z []).cons y).trans (List.Perm.swap x y [z])
  have p3 : [y, x, z].Perm [x, y, z] := List.Perm.swap x y [z]
  have p4 : [x, z, y].Perm [x, y, z] := (List.Perm.swap y z []).cons x
  have p5 : [z, x, y].Perm [x, y, z] := (List.Perm.swap x z [y]).trans p4
  unfold median3
  rw [sortCmp_eq cmp a hx hy, sortCmp_eq cmp a hy hz, sortCmp_eq cmp a hx hz]
  simp only [bind, Except.bind]
  split_ifs
  · exact ⟨_, rfl, z, x, p1, by omega, by omega⟩
  · exact ⟨_, rfl, y, x, p2, by omega, by omega⟩
  · exact ⟨_, rfl, y, z, p3, by omega, by omega⟩
  · exact ⟨_, rfl, x, z, List.Perm.refl _, by omega, by omega⟩
  · exact ⟨_, rfl, x, y, p4, by omega, by omega⟩
  · exact ⟨_, rfl, z, y, p5, by omega, by omega⟩

end EdgeEval.Sort
