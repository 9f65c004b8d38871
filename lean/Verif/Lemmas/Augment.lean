import Verif.Lemmas.MatchQuality
import Mathlib.Data.Finset.Image
import Mathlib.Data.Finset.Card
import Mathlib.Algebra.Order.BigOperators.Group.Finset
import Mathlib.Algebra.BigOperators.Group.Finset.Basic

/-! # Augmenting matchings: the optimal solution has the largest possible number of real edges -/

namespace EdgeEval

/-- A set of pairs that uses every first and every second component at most once. -/
def PairMatching {α β : Type} (M : Finset (α × β)) : Prop :=
  (∀ e ∈ M, ∀ f ∈ M, e.1 = f.1 → e = f) ∧ (∀ e ∈ M, ∀ f ∈ M, e.2 = f.2 → e = f)

theorem PairMatching.sub {α β : Type} {M N : Finset (α × β)} (h : PairMatching M) (hs : N ⊆ M) : PairMatching N :=
  ⟨fun e he f hf => h.1 e (hs he) f (hs hf), fun e he f hf => h.2 e (hs he) f (hs hf)⟩

theorem PairMatching.insert {α β : Type} [DecidableEq α] [DecidableEq β] {M : Finset (α × β)} (h : PairMatching M)
    {a : α} {b : β} (ha : a ∉ M.image Prod.fst) (hb : b ∉ M.image Prod.snd) : PairMatching (insert (a, b) M) := by
  constructor
  · intro e he f hf hef
    rw [Finset.mem_insert] at he hf
    rcases he with rfl | he <;> rcases hf with rfl | hf
    · rfl
    · exact absurd (Finset.mem_image.2 ⟨f, hf, hef.symm⟩) ha
    · exact absurd (Finset.mem_image.2 ⟨e, he, hef⟩) ha
    · exact h.1 e he f hf hef
  · intro e he f hf hef
    rw [Finset.mem_insert] at he hf
    rcases he with rfl | he <;> rcases hf with rfl | hf
    · rfl
    · exact absurd (Finset.mem_image.2 ⟨f, hf, hef.symm⟩) hb
    · exact absurd (Finset.mem_image.2 ⟨e, he, hef⟩) hb
    · exact h.2 e he f hf hef

/-- A smaller matching can be enlarged by one pair, keeping everything it covers covered. -/
theorem augment {α β : Type} [DecidableEq α] [DecidableEq β] : ∀ (n : Nat) (M M' : Finset (α × β)), M.card = n →
    PairMatching M → PairMatching M' → M.card < M'.card →
    ∃ (a : α) (b : β) (N : Finset (α × β)), a ∉ M.image Prod.fst ∧ b ∉ M.image Prod.snd ∧ PairMatching N ∧ N ⊆ M ∪ M' ∧
      N.image Prod.fst = insert a (M.image Prod.fst) ∧ N.image Prod.snd = insert b (M.image Prod.snd) := by
  intro n
  induction n with
  | zero =>
    intro M M' h0 hM hM' hlt
    obtain ⟨e, he⟩ := Finset.card_pos.1 (by omega : 0 < M'.card)
    rw [Finset.card_eq_zero] at h0
    subst h0
    exact ⟨e.1, e.2, {e}, by simp, by simp, ⟨by simp, by simp⟩, by simpa using he, by simp, by simp⟩
  | succ n ih =>
    intro M M' hn hM hM' hlt
    have hcard : ∀ {K : Finset (α × β)}, PairMatching K → (K.image Prod.fst).card = K.card := fun hK =>
      Finset.card_image_of_injOn fun e he f hf h => hK.1 e he f hf h
    have hex : ∃ e ∈ M', e.1 ∉ M.image Prod.fst := by
      by_contra hcon
      push Not at hcon
      have hsub : M'.image Prod.fst ⊆ M.image Prod.fst := by
        intro x hx
        obtain ⟨e, he, rfl⟩ := Finset.mem_image.1 hx
        exact hcon e he
      have := Finset.card_le_card hsub
      rw [hcard hM, hcard hM'] at this
      omega
    obtain ⟨⟨a, b⟩, he, ha⟩ := hex
    by_cases hb : b ∈ M.image Prod.snd
    · obtain ⟨⟨a1, b1⟩, hf, rfl⟩ := Finset.mem_image.1 hb
      simp only at he hb
      set Mh := M.erase (a1, b1) with hMh
      set Mh' := M'.erase (a, b1) with hMh'
      have c1 : Mh.card = n := by rw [Finset.card_erase_of_mem hf]; omega
      have c2 : Mh'.card = M'.card - 1 := Finset.card_erase_of_mem he
      have pM : PairMatching Mh := hM.sub (Finset.erase_subset _ _)
      have pM' : PairMatching Mh' := hM'.sub (Finset.erase_subset _ _)
      obtain ⟨a2, b2, N, h1, h2, h3, h4, h5, h6⟩ := ih Mh Mh' c1 pM pM' (by omega)
      -- neither `b1` nor `a` is used by `N`
      have hnb : b1 ∉ N.image Prod.snd := by
        intro h
        obtain ⟨⟨x, y⟩, hx, rfl⟩ := Finset.mem_image.1 h
        rcases Finset.mem_union.1 (h4 hx) with hx | hx
        · obtain ⟨k1, k2⟩ := Finset.mem_erase.1 hx
          exact k1 (hM.2 _ k2 _ hf rfl)
        · obtain ⟨k1, k2⟩ := Finset.mem_erase.1 hx
          exact k1 (hM'.2 _ k2 _ he rfl)
      have hna : a ∉ N.image Prod.fst := by
        intro h
        obtain ⟨⟨x, y⟩, hx, rfl⟩ := Finset.mem_image.1 h
        rcases Finset.mem_union.1 (h4 hx) with hx | hx
        · obtain ⟨k1, k2⟩ := Finset.mem_erase.1 hx
          exact ha (Finset.mem_image.2 ⟨_, k2, rfl⟩)
        · obtain ⟨k1, k2⟩ := Finset.mem_erase.1 hx
          exact k1 (hM'.1 _ k2 _ he rfl)
      have f1 : M.image Prod.fst = insert a1 (Mh.image Prod.fst) := by
        rw [← Finset.insert_erase hf, Finset.image_insert]
      have f2 : M.image Prod.snd = insert b1 (Mh.image Prod.snd) := by
        rw [← Finset.insert_erase hf, Finset.image_insert]
      have hsub : N ⊆ M ∪ M' := h4.trans (Finset.union_subset_union (Finset.erase_subset _ _) (Finset.erase_subset _ _))
      have hb2 : b2 ∉ M.image Prod.snd := by
        rw [f2, Finset.mem_insert]
        rintro (rfl | h)
        · exact hnb (by rw [h6]; exact Finset.mem_insert_self _ _)
        · exact h2 h
      by_cases h21 : a2 = a1
      · refine ⟨a, b2, insert (a, b1) N, ha, hb2, h3.insert hna hnb, ?_, ?_, ?_⟩
        · exact Finset.insert_subset (Finset.mem_union_right _ he) hsub
        · rw [Finset.image_insert, h5, f1, h21]
        · rw [Finset.image_insert, h6, f2, Finset.insert_comm]
      · have ha1 : a1 ∉ N.image Prod.fst := by
          rw [h5, Finset.mem_insert]
          rintro (h | h)
          · exact h21 h.symm
          · obtain ⟨⟨x, y⟩, hx, rfl⟩ := Finset.mem_image.1 h
            obtain ⟨k1, k2⟩ := Finset.mem_erase.1 hx
            exact k1 (hM.1 _ k2 _ hf rfl)
        refine ⟨a2, b2, insert (a1, b1) N, ?_, hb2, h3.insert ha1 hnb, ?_, ?_, ?_⟩
        · rw [f1, Finset.mem_insert]
          rintro (h | h)
          · exact h21 h
          · exact h1 h
        · exact Finset.insert_subset (Finset.mem_union_left _ hf) hsub
        · rw [Finset.image_insert, h5, f1, Finset.insert_comm]
        · rw [Finset.image_insert, h6, f2, Finset.insert_comm]
    · refine ⟨a, b, insert (a, b) M, ha, hb, hM.insert ha hb, ?_, ?_, ?_⟩
      · exact Finset.insert_subset (Finset.mem_union_right _ he) Finset.subset_union_left
      · rw [Finset.image_insert]
      · rw [Finset.image_insert]

/-- The real part of a solution as a set of node pairs. -/
noncomputable def realPart (n1 n2 : Nat) (sol : List GEdge) : Finset (Nat × Nat) :=
  ((sol.filter fun e => decide (e.i < n1) && decide (e.j < n2)).map fun e => (e.i, e.j)).toFinset

theorem mem_realPart {n1 n2 : Nat} {sol : List GEdge} {p : Nat × Nat} :
    p ∈ realPart n1 n2 sol ↔ p.1 < n1 ∧ p.2 < n2 ∧ ∃ e ∈ sol, e.i = p.1 ∧ e.j = p.2 := by
  unfold realPart
  simp only [List.mem_toFinset, List.mem_map, List.mem_filter, Bool.and_eq_true, decide_eq_true_eq]
  constructor
  · rintro ⟨e, ⟨h1, h2, h3⟩, rfl⟩
    exact ⟨h2, h3, e, h1, rfl, rfl⟩
  · rintro ⟨h2, h3, e, h1, h4, h5⟩
    exact ⟨e, ⟨h1, by omega, by omega⟩, by rw [h4, h5]⟩

theorem sum_le_of_small {α : Type} (s : Finset α) (g : α → Nat) (ow : Nat) (hs : s.Nonempty) (h6 : s.card ≤ 6)
    (h : ∀ a ∈ s, 6 * g a < ow) : s.sum g < ow := by
  have h1 : s.sum (fun a => 6 * g a) < s.sum (fun _ => ow) := Finset.sum_lt_sum_of_nonempty hs h
  rw [← Finset.mul_sum, Finset.sum_const, smul_eq_mul] at h1
  have h2 : s.card * ow ≤ 6 * ow := Nat.mul_le_mul_right _ h6
  exact Nat.lt_of_mul_lt_mul_left (h1.trans_le h2)

/-- A solution that is optimal up to `δ` contains at least as many real edges as any matching made of real edges. -/
theorem realPart_maximum {n1 n2 ow : Nat} (δ : Nat) {E : List MEdge} {xs : Nat → ℚ} {pos : Nat} (hx : Props.UnitStream xs)
    (hE : ∀ e ∈ E, e.i < n1 ∧ e.j < n2) (hcheap : ∀ e ∈ E, 6 * (rint100 e.d2 + δ) < ow) (hmin : min n1 n2 ≤ degree)
    {sol : List GEdge} (hperf : Perfect0 (n1 + n2) (buildGraph n1 n2 ow E xs pos) sol)
    (hopt : ∀ M, Perfect0 (n1 + n2) (buildGraph n1 n2 ow E xs pos) M → (sol.map GEdge.c).sum ≤ (M.map GEdge.c).sum + δ)
    (M : Finset (Nat × Nat)) (hM : PairMatching M) (hME : ∀ p ∈ M, ∃ e ∈ E, e.i = p.1 ∧ e.j = p.2) :
    M.card ≤ (realPart n1 n2 sol).card := by
  by_contra hlt
  push Not at hlt
  have hkind : ∀ e ∈ sol, EdgeKind n1 n2 ow E e := fun e he => buildGraph_kind hx (hperf.sub e he)
  have hndi : (sol.map GEdge.i).Nodup := hperf.left.nodup_iff.2 List.nodup_range
  have hndj : (sol.map GEdge.j).Nodup := hperf.right.nodup_iff.2 List.nodup_range
  have hpm : PairMatching (realPart n1 n2 sol) := by
    constructor
    · rintro ⟨a, b⟩ h ⟨a', b'⟩ h' hab
      obtain ⟨_, _, e, he, e1, e2⟩ := mem_realPart.1 h
      obtain ⟨_, _, f, hf, f1, f2⟩ := mem_realPart.1 h'
      simp only at *
      have : e = f := List.inj_on_of_nodup_map hndi he hf (by omega)
      subst this
      rw [hab, ← e2, ← f2]
    · rintro ⟨a, b⟩ h ⟨a', b'⟩ h' hab
      obtain ⟨_, _, e, he, e1, e2⟩ := mem_realPart.1 h
      obtain ⟨_, _, f, hf, f1, f2⟩ := mem_realPart.1 h'
      simp only at *
      have : e = f := List.inj_on_of_nodup_map hndj he hf (by omega)
      subst this
      rw [hab, ← e1, ← f1]
  obtain ⟨a, b, N, ha, hb, hN, hsub, hfst, hsnd⟩ := augment _ _ M rfl hpm hM hlt
  -- every pair of `N` is a real edge
  have hNE : ∀ p ∈ N, ∃ d : Nat, (⟨p.1, p.2, d⟩ : MEdge) ∈ E := by
    intro p hp
    rcases Finset.mem_union.1 (hsub hp) with h | h
    · obtain ⟨h1, h2, e, he, e1, e2⟩ := mem_realPart.1 h
      obtain ⟨me, hme, rfl⟩ := (hkind e he).real_of_lt (by omega) (by omega)
      simp only at e1 e2
      exact ⟨me.d2, by rw [← e1, ← e2]; exact hme⟩
    · obtain ⟨e, he, e1, e2⟩ := hME p h
      exact ⟨e.d2, by rw [← e1, ← e2]; exact he⟩
  choose! d hd using hNE
  have hNr : ∀ p ∈ N, p.1 < n1 ∧ p.2 < n2 := fun p hp => hE _ (hd p hp)
  have haN : a < n1 := by
    have : a ∈ N.image Prod.fst := by rw [hfst]; exact Finset.mem_insert_self _ _
    obtain ⟨p, hp, rfl⟩ := Finset.mem_image.1 this
    exact (hNr p hp).1
  have hbN : b < n2 := by
    have : b ∈ N.image Prod.snd := by rw [hsnd]; exact Finset.mem_insert_self _ _
    obtain ⟨p, hp, rfl⟩ := Finset.mem_image.1 this
    exact (hNr p hp).2
  have hNne : N.Nonempty := by
    have : a ∈ N.image Prod.fst := by rw [hfst]; exact Finset.mem_insert_self _ _
    obtain ⟨p, hp, _⟩ := Finset.mem_image.1 this
    exact ⟨p, hp⟩
  have hc1 : (N.image Prod.fst).card = N.card := Finset.card_image_of_injOn fun e he f hf h => hN.1 e he f hf h
  have hc2 : (N.image Prod.snd).card = N.card := Finset.card_image_of_injOn fun e he f hf h => hN.2 e he f hf h
  have hcard : N.card ≤ 6 := by
    have k1 : N.card ≤ n1 := by
      rw [← hc1, ← Finset.card_range n1]
      refine Finset.card_le_card fun x hx => ?_
      obtain ⟨p, hp, rfl⟩ := Finset.mem_image.1 hx
      exact Finset.mem_range.2 (hNr p hp).1
    have k2 : N.card ≤ n2 := by
      rw [← hc2, ← Finset.card_range n2]
      refine Finset.card_le_card fun x hx => ?_
      obtain ⟨p, hp, rfl⟩ := Finset.mem_image.1 hx
      exact Finset.mem_range.2 (hNr p hp).2
    unfold degree at hmin
    omega
  have hsum : N.sum (fun p => rint100 (d p)) + δ < ow := by
    have h1 := sum_le_of_small N (fun p => rint100 (d p) + δ) ow hNne hcard fun p hp => hcheap _ (hd p hp)
    rw [Finset.sum_add_distrib, Finset.sum_const, smul_eq_mul] at h1
    have h2 : δ ≤ N.card * δ := Nat.le_mul_of_pos_left _ hNne.card_pos
    omega
  -- the two solution edges at the newly covered nodes
  have : a ∈ sol.map GEdge.i := hperf.left.mem_iff.mpr (List.mem_range.mpr (by omega))
  obtain ⟨e, he, hei⟩ := List.mem_map.mp this
  have : b ∈ sol.map GEdge.j := hperf.right.mem_iff.mpr (List.mem_range.mpr (by omega))
  obtain ⟨f, hf, hfj⟩ := List.mem_map.mp this
  have hej : n2 ≤ e.j := by
    by_contra hlt'
    exact ha (Finset.mem_image.2 ⟨(a, e.j), mem_realPart.2 ⟨haN, by simp only; omega, e, he, hei, rfl⟩, rfl⟩)
  have hfi : n1 ≤ f.i := by
    by_contra hlt'
    exact hb (Finset.mem_image.2 ⟨(f.i, b), mem_realPart.2 ⟨by simp only; omega, hbN, f, hf, rfl, hfj⟩, rfl⟩)
  have hne : f ≠ e := by intro hfe; rw [hfe] at hfi; omega
  have hce : (ow : Int) ≤ e.c := (hkind e he).ow_le hE (by omega)
  have hcf : (ow : Int) ≤ f.c := (hkind f hf).ow_le hE (by omega)
  have hrange_e := (hkind e he).range hE
  have hrange_f := (hkind f hf).range hE
  -- split the solution
  let q : GEdge → Bool := fun e => decide (e.i < n1) && decide (e.j < n2)
  have hsplit : sol.Perm (sol.filter q ++ sol.filter (fun e => !q e)) := (List.filter_append_perm q sol).symm
  have he' : e ∈ sol.filter (fun e => !q e) := List.mem_filter.2 ⟨he, by simp [q]; omega⟩
  have hf' : f ∈ sol.filter (fun e => !q e) := List.mem_filter.2 ⟨hf, by simp [q]; omega⟩
  have hperm0 : (sol.filter (fun e => !q e)).Perm (e :: f :: ((sol.filter (fun e => !q e)).erase e).erase f) :=
    (List.perm_cons_erase he').trans
      ((List.perm_cons_erase ((List.mem_erase_of_ne hne).mpr hf')).cons e)
  generalize hrest : ((sol.filter (fun e => !q e)).erase e).erase f = rest at hperm0
  have hperm : sol.Perm (sol.filter q ++ (e :: f :: rest)) := hsplit.trans (hperm0.append_left _)
  have hrest_mem : ∀ a ∈ rest, a ∈ sol := fun a ha => hperm.mem_iff.mpr (by simp [ha])
  have hRi : ((sol.filter q).map GEdge.i).Nodup := hndi.sublist (List.filter_sublist.map _)
  have hRj : ((sol.filter q).map GEdge.j).Nodup := hndj.sublist (List.filter_sublist.map _)
  have memi : ∀ x, x ∈ (sol.filter q).map GEdge.i ↔ x ∈ (realPart n1 n2 sol).image Prod.fst := by
    intro x
    simp only [realPart, List.mem_map, Finset.mem_image, List.mem_toFinset]
    constructor
    · rintro ⟨g, hg, rfl⟩; exact ⟨_, ⟨g, hg, rfl⟩, rfl⟩
    · rintro ⟨_, ⟨g, hg, rfl⟩, rfl⟩; exact ⟨g, hg, rfl⟩
  have memj : ∀ x, x ∈ (sol.filter q).map GEdge.j ↔ x ∈ (realPart n1 n2 sol).image Prod.snd := by
    intro x
    simp only [realPart, List.mem_map, Finset.mem_image, List.mem_toFinset]
    constructor
    · rintro ⟨g, hg, rfl⟩; exact ⟨_, ⟨g, hg, rfl⟩, rfl⟩
    · rintro ⟨_, ⟨g, hg, rfl⟩, rfl⟩; exact ⟨g, hg, rfl⟩
  have hpi : (N.toList.map Prod.fst).Perm (a :: (sol.filter q).map GEdge.i) := by
    rw [List.perm_ext_iff_of_nodup]
    · intro x
      rw [List.mem_cons, memi, ← Finset.mem_insert, ← hfst]
      simp only [List.mem_map, Finset.mem_toList, Finset.mem_image]
    · exact List.Nodup.map_on (fun x hx y hy h => hN.1 x (Finset.mem_toList.1 hx) y (Finset.mem_toList.1 hy) h) N.nodup_toList
    · exact List.nodup_cons.2 ⟨fun h => ha ((memi a).1 h), hRi⟩
  have hpj : (N.toList.map Prod.snd).Perm (b :: (sol.filter q).map GEdge.j) := by
    rw [List.perm_ext_iff_of_nodup]
    · intro x
      rw [List.mem_cons, memj, ← Finset.mem_insert, ← hsnd]
      simp only [List.mem_map, Finset.mem_toList, Finset.mem_image]
    · exact List.Nodup.map_on (fun x hx y hy h => hN.2 x (Finset.mem_toList.1 hx) y (Finset.mem_toList.1 hy) h) N.nodup_toList
    · exact List.nodup_cons.2 ⟨fun h => hb ((memj b).1 h), hRj⟩
  let P : List GEdge := (N.toList.map fun p => (⟨p.1, p.2, (rint100 (d p) : Nat)⟩ : GEdge)) ++ (⟨f.i, e.j, ow⟩ :: rest)
  have hP : Perfect0 (n1 + n2) (buildGraph n1 n2 ow E xs pos) P := by
    refine ⟨?_, ?_, ?_⟩
    · intro g hg
      simp only [P, List.mem_append, List.mem_map, Finset.mem_toList, List.mem_cons] at hg
      rcases hg with ⟨p, hp, rfl⟩ | rfl | hg
      · exact mem_graph_real (hd p hp)
      · have := mem_graph_oo (n1 := n1) (n2 := n2) (ow := ow) (edges := E) (pos := pos) hx hmin
          (i := f.i - n1) (j := e.j - n2) (by omega) (by omega)
        rw [Nat.add_sub_cancel' hfi, Nat.add_sub_cancel' hej] at this
        exact this
      · exact hperf.sub g (hrest_mem g hg)
    · refine List.Perm.trans ?_ (((hperm.map GEdge.i).symm).trans hperf.left)
      simp only [P, List.map_append, List.map_map, List.map_cons]
      have : (GEdge.i ∘ fun p : Nat × Nat => (⟨p.1, p.2, (rint100 (d p) : Nat)⟩ : GEdge)) = Prod.fst := rfl
      rw [this]
      refine (hpi.append_right _).trans ?_
      rw [hei]
      exact List.perm_middle.symm
    · refine List.Perm.trans ?_ (((hperm.map GEdge.j).symm).trans hperf.right)
      simp only [P, List.map_append, List.map_map, List.map_cons]
      have : (GEdge.j ∘ fun p : Nat × Nat => (⟨p.1, p.2, (rint100 (d p) : Nat)⟩ : GEdge)) = Prod.snd := rfl
      rw [this]
      refine (hpj.append_right _).trans ?_
      rw [hfj]
      exact (List.perm_middle.symm).trans ((List.Perm.swap _ _ _).append_left _)
  have hle := hopt P hP
  rw [(hperm.map GEdge.c).sum_eq] at hle
  have hRc : 0 ≤ ((sol.filter q).map GEdge.c).sum := by
    apply List.sum_nonneg
    intro c hc
    obtain ⟨g, hg, rfl⟩ := List.mem_map.1 hc
    exact ((hkind g (List.mem_filter.1 hg).1).range hE).2.2
  have hNc : ((N.toList.map fun p => (⟨p.1, p.2, (rint100 (d p) : Nat)⟩ : GEdge)).map GEdge.c).sum =
      ((N.sum (fun p => rint100 (d p)) : Nat) : Int) := by
    rw [List.map_map, Nat.cast_sum, ← Finset.sum_map_toList]
    rfl
  simp only [P, List.map_append, List.map_cons, List.sum_append, List.sum_cons] at hle
  rw [hNc] at hle
  have : ((N.sum (fun p => rint100 (d p)) : Nat) : Int) + δ < ow := by exact_mod_cast hsum
  linarith

end EdgeEval
