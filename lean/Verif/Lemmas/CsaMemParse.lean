import Verif.Lemmas.CsaMemLoop
import Mathlib.Data.List.Count

/-! # Memory-level solver: `parse` -/

namespace EdgeEval.CsaMem

open EdgeEval

/-- Number of arcs of left node `t` (0-based) in a list. -/
def cnt (t : Nat) (g : List InArc) : Nat := g.countP (fun a => a.tail = t + 1)

theorem adjOf_length (N : Nat) (g : List InArc) (t : Nat) : (adjOf N g t).length = cnt t g := by
  unfold adjOf cnt
  rw [List.length_map, List.countP_eq_length_filter]

theorem off_eq {N : Nat} {g : List InArc} (hg : ∀ a ∈ g, 1 ≤ a.tail) (v : Nat) :
    off (adjOf N g) v = g.countP (fun a => a.tail ≤ v) := by
  induction v with
  | zero =>
    symm
    rw [off, List.countP_eq_zero]
    intro a ha
    have := hg a ha
    simp; omega
  | succ v ih =>
    rw [off, ih, adjOf_length]
    unfold cnt
    clear ih hg
    induction g with
    | nil => rfl
    | cons a g ih =>
      simp only [List.countP_cons]
      have e : (if decide (a.tail ≤ v + 1) = true then 1 else 0) =
          (if decide (a.tail ≤ v) = true then 1 else 0) + (if decide (a.tail = v + 1) = true then 1 else 0) := by
        simp only [decide_eq_true_eq]
        split <;> split <;> split <;> omega
      rw [e]
      omega

theorem off_le {N : Nat} {g : List InArc} (hg : ∀ a ∈ g, 1 ≤ a.tail) (v : Nat) : off (adjOf N g) v ≤ g.length := by
  rw [off_eq hg]
  exact List.countP_le_length

theorem off_mono (adj : Nat → List Arc) {u v : Nat} (h : u ≤ v) : off adj u ≤ off adj v := by
  induction h with
  | refl => exact le_refl _
  | step _ ih => exact ih.trans (Nat.le_add_right _ _)

theorem off_inj {adj : Nat → List Arc} {u v i j : Nat} (hi : i < (adj u).length) (hj : j < (adj v).length)
    (h : off adj u + i = off adj v + j) : u = v ∧ i = j := by
  rcases Nat.lt_trichotomy u v with hlt | heq | hgt
  · have := off_mono adj (show u + 1 ≤ v from hlt)
    have e : off adj (u + 1) = off adj u + (adj u).length := rfl
    omega
  · subst heq
    exact ⟨rfl, by omega⟩
  · have := off_mono adj (show v + 1 ≤ u from hgt)
    have e : off adj (v + 1) = off adj v + (adj v).length := rfl
    omega

/-- The `i`-th arc of the input is at its rank among the arcs of its left node. -/
theorem arcAt_rank {N : Nat} {g : List InArc} {i t : Nat} (hi : i < g.length) (ht : (g[i]).tail = t + 1) :
    cnt t (g.take i) < (adjOf N g t).length ∧
      arcAt (adjOf N g) t (cnt t (g.take i)) = ⟨(g[i]).head - N - 1, (g[i]).cost⟩ := by
  have hsplit : g.filter (fun a => a.tail = t + 1) =
      (g.take i).filter (fun a => a.tail = t + 1) ++ g[i] :: (g.drop (i + 1)).filter (fun a => a.tail = t + 1) := by
    conv_lhs => rw [← List.take_append_drop i g, List.drop_eq_getElem_cons hi, List.filter_append]
    rw [List.filter_cons_of_pos (by simpa using ht)]
  have hl : ((g.take i).filter (fun a => a.tail = t + 1)).length = cnt t (g.take i) := by
    unfold cnt
    rw [List.countP_eq_length_filter]
  constructor
  · unfold adjOf
    rw [List.length_map, hsplit, List.length_append, hl, List.length_cons]
    omega
  · unfold arcAt adjOf
    rw [List.getD_eq_getElem?_getD, List.getElem?_map, hsplit, List.getElem?_append_right (by rw [hl]), hl, Nat.sub_self]
    rfl

theorem cnt_take_succ {g : List InArc} {i : Nat} (hi : i < g.length) (t : Nat) :
    cnt t (g.take (i + 1)) = cnt t (g.take i) + if (g[i]).tail = t + 1 then 1 else 0 := by
  unfold cnt
  rw [List.take_succ_eq_append_getElem hi, List.countP_append]
  simp [List.countP_cons]

theorem maxCost_take_succ {g : List InArc} {i : Nat} (hi : i < g.length) :
    csaMaxCost (g.take (i + 1)) = max (csaMaxCost (g.take i)) (g[i]).cost.natAbs := by
  unfold csaMaxCost
  rw [List.take_succ_eq_append_getElem hi, List.foldl_append]
  rfl

theorem graphBlk_has {g : List InArc} {i : Nat} (hi : i < g.length) :
    (graphBlk g).Has (3 * i) ((g[i]).tail : Int) ∧ (graphBlk g).Has (3 * i + 1) ((g[i]).head : Int) ∧
      (graphBlk g).Has (3 * i + 2) (g[i]).cost := by
  refine ⟨⟨by show 3 * i < 3 * g.length; omega, ?_⟩, ⟨by show 3 * i + 1 < 3 * g.length; omega, ?_⟩,
    ⟨by show 3 * i + 2 < 3 * g.length; omega, ?_⟩⟩
  · show (g[(3 * i) / 3]?).map _ = _
    rw [show 3 * i / 3 = i by omega, List.getElem?_eq_getElem hi, Option.map_some, if_pos (by omega)]
  · show (g[(3 * i + 1) / 3]?).map _ = _
    rw [show (3 * i + 1) / 3 = i by omega, List.getElem?_eq_getElem hi, Option.map_some, if_neg (by omega), if_pos (by omega)]
  · show (g[(3 * i + 2) / 3]?).map _ = _
    rw [show (3 * i + 2) / 3 = i by omega, List.getElem?_eq_getElem hi, Option.map_some, if_neg (by omega), if_neg (by omega)]

/-- State after the first `i` input arcs. -/
structure ReadInv (N : Nat) (g : List InArc) (i : Nat) (st : ParseSt) : Prop where
  temp : ∀ j, (hj : j < i) → (hg : j < g.length) → st.temp.Has j ⟨(g[j]).tail - 1, (g[j]).head - N - 1, (g[j]).cost⟩
  size : st.temp.size = g.length
  ptr : st.tempA = i
  deg : ∀ t < N, st.degree.Has t (cnt t (g.take i))
  max : st.maxCost = csaMaxCost (g.take i)

theorem readArc_ok {N : Nat} {g : List InArc} (hg : WellFormedGraph N g) {i : Nat} (hi : i < g.length) {st : ParseSt}
    (inv : ReadInv N g i st) :
    ∃ st', readArc (2 * N) N (graphBlk g) i st = .ok st' ∧ ReadInv N g (i + 1) st' := by
  obtain ⟨g1, g2, g3⟩ := graphBlk_has hi
  obtain ⟨w1, w2, w3, w4⟩ := hg g[i] (List.getElem_mem hi)
  unfold readArc
  rw [g1.rd, ok_bind, g2.rd, ok_bind, g3.rd, ok_bind]
  dsimp only
  rw [if_neg (by push Not; refine ⟨by omega, by omega, by omega, by omega⟩)]
  have et : (((g[i]).tail : Int) - 1).toNat = (g[i]).tail - 1 := by omega
  have eh : (((g[i]).head : Int) - (N : Int) - 1).toNat = (g[i]).head - N - 1 := by omega
  rw [et, eh]
  have hsz : st.tempA < st.temp.size := by rw [inv.ptr, inv.size]; exact hi
  have hd := inv.deg ((g[i]).tail - 1) (by omega)
  rw [Blk.wr_eq hsz, ok_bind, hd.rd, ok_bind, hd.wr, ok_bind]
  refine ⟨_, rfl, ?_, inv.size, by show st.tempA + 1 = i + 1; rw [inv.ptr], ?_, ?_⟩
  · intro j hj hjg
    by_cases e : j = i
    · subst e
      show (st.temp.set st.tempA _).Has _ _
      rw [inv.ptr] at hsz ⊢
      exact Blk.has_set hsz _
    · exact Blk.has_set_ne (by rw [inv.ptr]; exact e) (inv.temp j (by omega) hjg)
  · intro t ht
    rw [cnt_take_succ hi]
    dsimp only
    by_cases e : t = (g[i]).tail - 1
    · have e1 : (if (g[i]).tail = t + 1 then 1 else 0) = 1 := if_pos (by omega)
      rw [e1]
      subst e
      exact Blk.has_set hd.1 _
    · have e1 : (if (g[i]).tail = t + 1 then 1 else 0) = 0 := if_neg (by omega)
      rw [e1]
      exact Blk.has_set_ne e (inv.deg t ht)
  · show (if (g[i]).cost.natAbs > st.maxCost then (g[i]).cost.natAbs else st.maxCost) = _
    rw [maxCost_take_succ hi, inv.max]
    split <;> omega

/-- The blocks after the left nodes below `v` were laid out. -/
structure LayInv (adj : Nat → List Arc) (h0 : Heap) (v : Nat) (s : Nat × Heap) : Prop where
  ptr : s.1 = off adj v
  first : ∀ u < v, s.2.first.Has u (off adj u)
  pout : ∀ u < v, s.2.pricedOut.Has u (off adj u)
  lm : ∀ u < v, s.2.lMatched.Has u none
  few : ∀ u < v, s.2.few.Has u (decide ((adj u).length < numBest + 1))
  rest : s.2 = { h0 with first := s.2.first, pricedOut := s.2.pricedOut, lMatched := s.2.lMatched, few := s.2.few }
  sz : s.2.first.size = h0.first.size ∧ s.2.pricedOut.size = h0.pricedOut.size ∧ s.2.lMatched.size = h0.lMatched.size ∧
    s.2.few.size = h0.few.size

theorem layNode_ok {adj : Nat → List Arc} {h0 : Heap} {N v : Nat} {degree : Blk Nat} (hdeg : ∀ t < N, degree.Has t (adj t).length)
    (hsz : N < h0.first.size ∧ N < h0.pricedOut.size ∧ N < h0.lMatched.size ∧ N < h0.few.size) (hv : v < N) {s : Nat × Heap}
    (inv : LayInv adj h0 v s) : ∃ s', layNode degree v s = .ok s' ∧ LayInv adj h0 (v + 1) s' := by
  obtain ⟨z1, z2, z3, z4⟩ := inv.sz
  have k1 : v < s.2.first.size := by omega
  have k2 : v < s.2.pricedOut.size := by omega
  have k3 : v < s.2.lMatched.size := by omega
  have k4 : v < s.2.few.size := by omega
  unfold layNode
  rw [Blk.wr_eq k1, ok_bind, Blk.wr_eq k2, ok_bind, Blk.wr_eq k3, ok_bind, (hdeg v hv).rd, ok_bind, Blk.wr_eq k4, ok_bind]
  refine ⟨_, rfl, by show s.1 + (adj v).length = _; rw [inv.ptr]; rfl, ?_, ?_, ?_, ?_, ?_, inv.sz⟩
  · intro u hu
    rcases Nat.lt_succ_iff_lt_or_eq.1 hu with h1 | h1
    · exact Blk.has_set_ne (by omega) (inv.first u h1)
    · subst h1; show (s.2.first.set _ s.1).Has _ _; rw [← inv.ptr]; exact Blk.has_set k1 _
  · intro u hu
    rcases Nat.lt_succ_iff_lt_or_eq.1 hu with h1 | h1
    · exact Blk.has_set_ne (by omega) (inv.pout u h1)
    · subst h1; show (s.2.pricedOut.set _ s.1).Has _ _; rw [← inv.ptr]; exact Blk.has_set k2 _
  · intro u hu
    rcases Nat.lt_succ_iff_lt_or_eq.1 hu with h1 | h1
    · exact Blk.has_set_ne (by omega) (inv.lm u h1)
    · subst h1; exact Blk.has_set k3 _
  · intro u hu
    rcases Nat.lt_succ_iff_lt_or_eq.1 hu with h1 | h1
    · exact Blk.has_set_ne (by omega) (inv.few u h1)
    · subst h1; exact Blk.has_set k4 _
  · have hr := inv.rest
    generalize s.2 = h at hr ⊢
    cases h
    cases h0
    simp only [Heap.mk.injEq] at hr ⊢
    simp_all

/-- The blocks after the right nodes below `w` were set up. -/
structure RightInv (h0 : Heap) (w : Nat) (h : Heap) : Prop where
  pin : ∀ u < w, h.pricedIn.Has u true
  rm : ∀ u < w, h.rMatched.Has u none
  pr : ∀ u < w, h.price.Has u 0
  rest : h = { h0 with pricedIn := h.pricedIn, rMatched := h.rMatched, price := h.price }
  sz : h.pricedIn.size = h0.pricedIn.size ∧ h.rMatched.size = h0.rMatched.size ∧ h.price.size = h0.price.size

theorem initRight_ok {h0 : Heap} {N w : Nat} (hsz : N < h0.pricedIn.size ∧ N < h0.rMatched.size ∧ N < h0.price.size) (hw : w < N)
    {h : Heap} (inv : RightInv h0 w h) : ∃ h', initRight w h = .ok h' ∧ RightInv h0 (w + 1) h' := by
  obtain ⟨z1, z2, z3⟩ := inv.sz
  have k1 : w < h.pricedIn.size := by omega
  have k2 : w < h.rMatched.size := by omega
  have k3 : w < h.price.size := by omega
  unfold initRight
  rw [Blk.wr_eq k1, ok_bind, Blk.wr_eq k2, ok_bind, Blk.wr_eq k3, ok_bind]
  refine ⟨_, rfl, ?_, ?_, ?_, ?_, inv.sz⟩
  · intro u hu
    rcases Nat.lt_succ_iff_lt_or_eq.1 hu with h1 | h1
    · exact Blk.has_set_ne (by omega) (inv.pin u h1)
    · subst h1; exact Blk.has_set k1 _
  · intro u hu
    rcases Nat.lt_succ_iff_lt_or_eq.1 hu with h1 | h1
    · exact Blk.has_set_ne (by omega) (inv.rm u h1)
    · subst h1; exact Blk.has_set k2 _
  · intro u hu
    rcases Nat.lt_succ_iff_lt_or_eq.1 hu with h1 | h1
    · exact Blk.has_set_ne (by omega) (inv.pr u h1)
    · subst h1; exact Blk.has_set k3 _
  · have hr := inv.rest
    cases h
    cases h0
    simp only [Heap.mk.injEq] at hr ⊢
    simp_all

/-- The blocks while the arcs are placed: those of the last inputs are in place. -/
structure PlaceInv (N : Nat) (g : List InArc) (h0 : Heap) (i : Nat) (s : Blk Nat × Heap) : Prop where
  deg : ∀ t < N, s.1.Has t (cnt t (g.take i))
  arcs : ∀ v < N, ∀ k, cnt v (g.take i) ≤ k → k < (adjOf N g v).length →
    s.2.arcs.Has (off (adjOf N g) v + k) (arcAt (adjOf N g) v k)
  rest : s.2 = { h0 with arcs := s.2.arcs }
  sz : s.2.arcs.size = h0.arcs.size

theorem placeArcs_ok {N : Nat} {g : List InArc} (hg : WellFormedGraph N g) {temp : Blk TempArc} {h0 : Heap}
    (htemp : ∀ j, (hj : j < g.length) → temp.Has j ⟨(g[j]).tail - 1, (g[j]).head - N - 1, (g[j]).cost⟩)
    (hfirst : ∀ v < N, h0.first.Has v (off (adjOf N g) v)) (hsz : g.length < h0.arcs.size) (i : Nat) (hi : i ≤ g.length)
    (s : Blk Nat × Heap) (inv : PlaceInv N g h0 i s) :
    ∃ s', placeArcs temp i s = .ok s' ∧ PlaceInv N g h0 0 s' := by
  induction i generalizing s with
  | zero => exact ⟨s, rfl, inv⟩
  | succ i ih =>
    have hi' : i < g.length := by omega
    obtain ⟨w1, w2, w3, w4⟩ := hg g[i] (List.getElem_mem hi')
    obtain ⟨t, ht⟩ : ∃ t, (g[i]).tail = t + 1 := ⟨(g[i]).tail - 1, by omega⟩
    have htN : t < N := by omega
    obtain ⟨hr1, hr2⟩ := arcAt_rank (N := N) hi' ht
    have hT := htemp i hi'
    rw [show (g[i]).tail - 1 = t by omega] at hT
    have hf : s.2.first.Has t (off (adjOf N g) t) := by rw [inv.rest]; exact hfirst t htN
    have hd := inv.deg t htN
    rw [cnt_take_succ hi', if_pos ht] at hd
    have hlt : off (adjOf N g) t + cnt t (g.take i) < s.2.arcs.size := by
      have h1 := off_le (N := N) (g := g) (fun a ha => (hg a ha).1) (t + 1)
      have e : off (adjOf N g) (t + 1) = off (adjOf N g) t + (adjOf N g t).length := rfl
      rw [inv.sz]
      omega
    have step : ∃ s1, placeArc temp i s = .ok s1 ∧ PlaceInv N g h0 i s1 := by
      unfold placeArc
      rw [hT.rd, ok_bind]
      dsimp only
      rw [hf.rd, ok_bind, hd.rd, ok_bind]
      unfold dec
      rw [if_neg (by omega), ok_bind, Nat.add_sub_cancel, hd.wr, ok_bind, Blk.wr_eq hlt, ok_bind]
      refine ⟨_, rfl, ?_, ?_, ?_, inv.sz⟩
      · intro u hu
        by_cases e : u = t
        · subst e
          exact Blk.has_set hd.1 _
        · refine Blk.has_set_ne e ?_
          have := inv.deg u hu
          rwa [cnt_take_succ hi', if_neg (by omega), Nat.add_zero] at this
      · intro v hv k hk1 hk2
        by_cases e : v = t ∧ k = cnt t (g.take i)
        · obtain ⟨rfl, rfl⟩ := e
          rw [hr2]
          exact Blk.has_set hlt _
        · refine Blk.has_set_ne (fun he => e (off_inj hk2 hr1 he)) ?_
          refine inv.arcs v hv k ?_ hk2
          rw [cnt_take_succ hi']
          split
          · rename_i hvt
            have : v = t := by omega
            subst this
            have : k ≠ cnt v (g.take i) := fun he => e ⟨rfl, he⟩
            omega
          · omega
      · have hr := inv.rest
        dsimp only
        generalize s.2 = h at hr ⊢
        cases h
        cases h0
        simp only [Heap.mk.injEq] at hr ⊢
        simp_all
    obtain ⟨s1, e1, inv1⟩ := step
    obtain ⟨s2, e2, inv2⟩ := ih (by omega) s1 inv1
    refine ⟨s2, ?_, inv2⟩
    unfold placeArcs
    rw [e1, ok_bind, e2]

theorem parse_ok {N : Nat} {g : List InArc} (hg : WellFormedGraph N g) :
    ∃ h, parse (2 * N) g.length (graphBlk g) = .ok (h, csaMaxCost g) ∧ Parsed (adjOf N g) N h := by
  have e2 : 2 * N / 2 = N := by omega
  have e3 : 2 * N - N = N := by omega
  unfold parse
  dsimp only
  rw [e2, e3]
  -- degrees
  obtain ⟨dg, ed, hdsz, hd⟩ := forLoop_inv (f := fun t (d : Blk Nat) => d.wr t 0) (cnt := N) (lo := 0) (s := malloc Nat N)
    (fun i d => d.size = N ∧ ∀ t < i, d.Has t 0) ⟨rfl, fun t ht => by omega⟩ (by
      rintro i d - hi ⟨hs, hd⟩
      rw [Nat.zero_add] at hi
      refine ⟨_, Blk.wr_eq (by rw [hs]; exact hi) 0, hs, ?_⟩
      intro t ht
      rcases Nat.lt_succ_iff_lt_or_eq.1 ht with h1 | h1
      · exact Blk.has_set_ne (by omega) (hd t h1)
      · subst h1; exact Blk.has_set (by rw [hs]; exact hi) _)
  rw [ed, ok_bind]
  rw [Nat.zero_add] at hd
  -- input arcs
  obtain ⟨st, es, inv⟩ := forLoop_inv (f := readArc (2 * N) N (graphBlk g)) (cnt := g.length) (lo := 0)
    (s := ⟨malloc TempArc g.length, 0, dg, 0⟩) (fun i st => ReadInv N g i st)
    ⟨fun j hj => by omega, rfl, rfl, fun t ht => hd t ht, rfl⟩
    (fun i st _ hi inv => readArc_ok hg (by omega) inv)
  rw [es, ok_bind]
  rw [Nat.zero_add] at inv
  have htk : g.take g.length = g := List.take_length
  have hdeg : ∀ t < N, st.degree.Has t (adjOf N g t).length := by
    intro t ht
    have := inv.deg t ht
    rwa [htk, ← adjOf_length N g t] at this
  -- left nodes
  generalize hH : heap0 N N g.length = h0
  obtain ⟨x, ex, lay⟩ := forLoop_inv (f := layNode st.degree) (cnt := N) (lo := 0) (s := (0, h0))
    (fun v s => LayInv (adjOf N g) h0 v s)
    ⟨rfl, fun u hu => by omega, fun u hu => by omega, fun u hu => by omega, fun u hu => by omega, rfl, rfl, rfl, rfl, rfl⟩
    (fun v s _ hv inv => layNode_ok (N := N) hdeg (by
      subst hH
      exact ⟨Nat.lt_succ_self N, Nat.lt_succ_self N, Nat.lt_succ_self N, Nat.lt_succ_self N⟩) (by omega) inv)
  rw [ex, ok_bind]
  rw [Nat.zero_add] at lay
  have kpo : N < x.2.pricedOut.size := by
    rw [lay.sz.2.1]; subst hH; exact Nat.lt_succ_self N
  rw [Blk.wr_eq kpo, ok_bind]
  -- right nodes
  generalize hX : ({ x.2 with pricedOut := x.2.pricedOut.set N x.1 } : Heap) = hx
  obtain ⟨h2, e2', rt⟩ := forLoop_inv (f := initRight) (cnt := N) (lo := 0) (s := hx)
    (fun w h => RightInv hx w h)
    ⟨fun u hu => by omega, fun u hu => by omega, fun u hu => by omega, rfl, rfl, rfl, rfl⟩
    (fun w h _ hw inv => initRight_ok (N := N) (by
      subst hX
      rw [lay.rest]
      subst hH
      exact ⟨Nat.lt_succ_self N, Nat.lt_succ_self N, Nat.lt_succ_self N⟩) (by omega) inv)
  rw [e2', ok_bind]
  rw [Nat.zero_add] at rt
  -- placement
  have hf2 : ∀ v < N, h2.first.Has v (off (adjOf N g) v) := by
    intro v hv
    rw [rt.rest]
    subst hX
    exact lay.first v hv
  obtain ⟨y, ey, pl⟩ := placeArcs_ok hg (temp := st.temp) (h0 := h2) (fun j hj => inv.temp j hj hj) hf2 (by
      rw [rt.rest]
      subst hX
      show g.length < x.2.arcs.size
      rw [lay.rest]
      subst hH
      exact Nat.lt_succ_self _) g.length (le_refl _) (st.degree, h2)
    ⟨fun t ht => inv.deg t ht, fun v hv k hk1 hk2 => by
      rw [htk, ← adjOf_length N g v] at hk1
      omega, rfl, rfl⟩
  rw [inv.ptr, ey, ok_bind, inv.max, htk]
  refine ⟨y.2, rfl, ⟨?_, ?_, ?_, ?_, ?_, ?_, ?_, ?_⟩, ?_, ?_, ?_, ?_, ?_⟩
  · intro v hv k hk
    exact pl.arcs v hv k (by simp [cnt]) hk
  · intro v hv
    rw [pl.rest]
    exact hf2 v hv
  · intro v hv
    rw [pl.rest]
    show h2.pricedOut.Has _ _
    rw [rt.rest]
    subst hX
    show (x.2.pricedOut.set N x.1).Has _ _
    by_cases e : v = N
    · subst e
      rw [← lay.ptr]
      exact Blk.has_set kpo _
    · exact Blk.has_set_ne e (lay.pout v (by omega))
  · intro v hv
    rw [pl.rest]
    show h2.few.Has _ _
    rw [rt.rest]
    subst hX
    exact lay.few v hv
  · intro w hw
    rw [pl.rest]
    exact rt.pin w hw
  · rw [pl.rest]
    show h2.best.size = _
    rw [rt.rest]; subst hX
    show x.2.best.size = _
    rw [lay.rest]; subst hH
    rfl
  · rw [pl.rest]
    show h2.nextBest.size = _
    rw [rt.rest]; subst hX
    show x.2.nextBest.size = _
    rw [lay.rest]; subst hH
    rfl
  · rw [pl.rest]
    show h2.stack.size = _
    rw [rt.rest]; subst hX
    show x.2.stack.size = _
    rw [lay.rest]; subst hH
    exact (Nat.two_mul N).symm
  · intro v hv
    rw [pl.rest]
    show h2.lMatched.Has _ _
    rw [rt.rest]
    subst hX
    exact lay.lm v hv
  · intro w hw
    rw [pl.rest]
    exact rt.rm w hw
  · intro w hw
    rw [pl.rest]
    exact rt.pr w hw
  · rw [pl.rest]
    show h2.top = _
    rw [rt.rest]; subst hX
    show x.2.top = _
    rw [lay.rest]; subst hH
    rfl
  · rw [pl.rest]
    show h2.totalE = _
    rw [rt.rest]; subst hX
    show x.2.totalE = _
    rw [lay.rest]; subst hH
    rfl

end EdgeEval.CsaMem
