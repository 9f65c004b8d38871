import Verif.Lemmas.MatchMemGraph

/-! # Lemmas on the memory-level model of `match.cc`: reading the solution and writing the result -/

namespace EdgeEval.MatchMem

open EdgeEval EdgeEval.CsaMem EdgeEval.Props

section
variable {h w : Nat} {md2 oc2 : ℚ} {b1 b2 : BMap}

theorem take_ok (n : Nat) (sol : List GEdge) (hl : sol.length = n) :
    ∃ og, forLoop (takeEdge n (sol.map fun e => triple (toArc n e))) n 0 (Arr.new _ n 3) = .ok og ∧ og.Is n 3 (rowCell sol) := by
  obtain ⟨og, e, hog⟩ := forLoop_inv (f := takeEdge n (sol.map fun e => triple (toArc n e))) (cnt := n) (lo := 0) (s := Arr.new _ n 3)
    (fun i og => og.Is n 3 (rowCell (sol.take i))) ((Arr.is_new _ _ _).congr fun _ _ _ _ => by simp [rowCell]) (by
      intro i og _ hi inv
      have hi' : i < sol.length := by omega
      have e0 : (sol.map fun e => triple (toArc n e))[i]? = some (triple (toArc n sol[i])) := by
        rw [List.getElem?_map, List.getElem?_eq_getElem hi']; rfl
      unfold takeEdge
      rw [at'_ok e0, ok_bind]
      obtain ⟨a, ea, ha⟩ := inv.wr (i := i) (j := 0) (by omega) (by omega) ((triple (toArc n sol[i])).1 - 1)
      obtain ⟨b, eb, hb⟩ := ha.wr (i := i) (j := 1) (by omega) (by omega) ((triple (toArc n sol[i])).2.1 - 1 - n)
      obtain ⟨c, ec, hc⟩ := hb.wr (i := i) (j := 2) (by omega) (by omega) (triple (toArc n sol[i])).2.2
      rw [ea, ok_bind, eb, ok_bind, ec]
      refine ⟨_, rfl, hc.congr ?_⟩
      intro i' _ j hj
      have hti : (sol.take i).length = i := by rw [List.length_take]; omega
      unfold rowCell
      rw [List.take_add_one, List.getElem?_eq_getElem hi']
      by_cases ei : i' = i
      · subst ei
        rw [List.getElem?_append_right (by rw [hti]), hti, Nat.sub_self]
        have : j = 0 ∨ j = 1 ∨ j = 2 := by omega
        rcases this with rfl | rfl | rfl <;> simp [comp, triple, toArc]
        omega
      · rw [if_neg (fun hh => ei hh.1), if_neg (fun hh => ei hh.1), if_neg (fun hh => ei hh.1)]
        by_cases hlt : i' < i
        · rw [List.getElem?_append_left (by omega)]
        · rw [List.getElem?_eq_none (by omega), List.getElem?_eq_none (by simp; omega)])
  rw [Nat.zero_add, List.take_of_length_le (by omega)] at hog
  exact ⟨og, e, hog⟩

theorem getD_some {l : List Pix} {i : Nat} (hi : i < l.length) : l[i]? = some (l.getD i (0, 0)) := by
  rw [List.getElem?_eq_getElem hi, List.getD_eq_getElem?_getD, List.getElem?_eq_getElem hi]
  rfl

/-- The cells of one solution edge. -/
theorem row_rd {n : Nat} {sol : List GEdge} (hl : sol.length = n) {og : Arr Int} (hog : og.Is n 3 (rowCell sol)) {a : Nat} (ha : a < n) :
    og.rd a 0 = .ok ((sol[a]'(by omega)).i : Int) ∧ og.rd a 1 = .ok ((sol[a]'(by omega)).j : Int) ∧
      og.rd a 2 = .ok (sol[a]'(by omega)).c := by
  have ha' : a < sol.length := by omega
  refine ⟨hog.rd ha (by omega) ?_, hog.rd ha (by omega) ?_, hog.rd ha (by omega) ?_⟩ <;>
    simp [rowCell, comp, ha']

theorem check_ok {n ow : Nat} {ns : NodeSt} {sol : List GEdge} (hl : sol.length = n) {og : Arr Int}
    (hog : og.Is n 3 (rowCell sol)) (hn1 : ns.n1 = ns.v1.length) (hn2 : ns.n2 = ns.v2.length)
    (hok : ∀ e ∈ sol, solutionOk n ns.v1 ns.v2 e = true) :
    forLoop (checkEdge n ns.n1 ns.n2 ow ns og) n 0 0 = .ok (sol.countP fun e => e.c = ((ow * multiplier : Nat) : Int)) := by
  obtain ⟨c, e, hc⟩ := forLoop_inv (f := checkEdge n ns.n1 ns.n2 ow ns og) (cnt := n) (lo := 0) (s := 0)
    (fun a c => c = (sol.take a).countP fun e => e.c = ((ow * multiplier : Nat) : Int)) (by simp) (by
      rintro a c _ ha rfl
      have ha' : a < sol.length := by omega
      obtain ⟨r1, r2, r3⟩ := row_rd hl hog (a := a) (by omega)
      have hs := hok _ (List.getElem_mem ha')
      have hcnt : (if sol[a].c = ((ow * multiplier : Nat) : Int) then
            (sol.take a).countP (fun e => e.c = ((ow * multiplier : Nat) : Int)) + 1
          else (sol.take a).countP fun e => e.c = ((ow * multiplier : Nat) : Int)) =
          (sol.take (a + 1)).countP fun e => e.c = ((ow * multiplier : Nat) : Int) := by
        rw [List.take_add_one, List.getElem?_eq_getElem ha', List.countP_append]
        by_cases hh : sol[a].c = ((ow * multiplier : Nat) : Int)
        · rw [if_pos hh]; simp [hh]
        · rw [if_neg hh]
          simp only [Option.toList_some, List.countP_singleton, hh, decide_false]
          rfl
      refine ⟨_, ?_, rfl⟩
      rw [← hcnt]
      generalize (sol.take a).countP (fun e => e.c = ((ow * multiplier : Nat) : Int)) = cn
      unfold checkEdge
      rw [r1, ok_bind, r2, ok_bind, r3, ok_bind]
      generalize sol[a] = ed at *
      unfold solutionOk at hs
      simp only [Bool.and_eq_true, decide_eq_true_eq, Bool.or_eq_true, beq_iff_eq] at hs
      obtain ⟨⟨⟨h1, h2⟩, h3⟩, h4⟩ := hs
      rw [need_ok (by omega), ok_bind, need_ok (by omega), ok_bind, need_ok h3, ok_bind]
      dsimp only
      generalize (if ed.c = ((ow * multiplier : Nat) : Int) then cn + 1 else cn) = cn'
      by_cases g1 : (ed.i : Int) ≥ ns.n1
      · rw [if_pos g1]
      · rw [if_neg g1]
        by_cases g2 : (ed.j : Int) ≥ ns.n2
        · rw [if_pos g2]
        · rw [if_neg g2, Int.toNat_natCast, Int.toNat_natCast, at'_ok (getD_some (by omega)), ok_bind,
            at'_ok (getD_some (by omega)), ok_bind]
          rcases h4 with (h4 | h4) | h4
          · omega
          · omega
          · rw [need_ok h4.symm, ok_bind])
  rw [e, hc, Nat.zero_add, List.take_of_length_le (by omega)]

/-- The two match arrays hold `mt`. -/
def MtIs (h w : Nat) (mt : Matches) (s : Arr (Option Pix) × Arr (Option Pix)) : Prop :=
  s.1.Is w h (fun x y => some (mt.m1 (x, y))) ∧ s.2.Is w h (fun x y => some (mt.m2 (x, y)))

theorem record_ok {n : Nat} {ns : NodeSt} {sol : List GEdge} (hl : sol.length = n) {og : Arr Int}
    (hog : og.Is n 3 (rowCell sol)) (hn1 : ns.n1 = ns.v1.length) (hn2 : ns.n2 = ns.v2.length)
    (h1 : ∀ p ∈ ns.v1, p.1 < w ∧ p.2 < h) (h2 : ∀ p ∈ ns.v2, p.1 < w ∧ p.2 < h) {s : Arr (Option Pix) × Arr (Option Pix)}
    (hs : MtIs h w ⟨fun _ => none, fun _ => none⟩ s) :
    ∃ s', forLoop (recordEdge ns.n1 ns.n2 ns og) n 0 s = .ok s' ∧
      MtIs h w (sol.foldl (recordMatch ns.v1 ns.v2) ⟨fun _ => none, fun _ => none⟩) s' := by
  obtain ⟨s', e, hc⟩ := forLoop_inv (f := recordEdge ns.n1 ns.n2 ns og) (cnt := n) (lo := 0) (s := s)
    (fun a s => MtIs h w ((sol.take a).foldl (recordMatch ns.v1 ns.v2) ⟨fun _ => none, fun _ => none⟩) s) (by simpa using hs) (by
      intro a s _ ha hs
      have ha' : a < sol.length := by omega
      obtain ⟨r1, r2, _⟩ := row_rd hl hog (a := a) (by omega)
      rw [List.take_add_one, List.getElem?_eq_getElem ha', List.foldl_append]
      generalize (sol.take a).foldl (recordMatch ns.v1 ns.v2) ⟨fun _ => none, fun _ => none⟩ = mt at *
      show ∃ s', _ ∧ MtIs h w (recordMatch ns.v1 ns.v2 mt sol[a]) s'
      unfold recordEdge
      rw [r1, ok_bind, r2, ok_bind]
      generalize sol[a] = ed at *
      unfold recordMatch
      by_cases g1 : (ed.i : Int) ≥ ns.n1
      · rw [if_pos g1, if_neg (by omega)]
        exact ⟨s, rfl, hs⟩
      · rw [if_neg g1]
        by_cases g2 : (ed.j : Int) ≥ ns.n2
        · rw [if_pos g2, if_neg (by omega)]
          exact ⟨s, rfl, hs⟩
        · rw [if_neg g2, if_pos (by omega), Int.toNat_natCast, Int.toNat_natCast, at'_ok (getD_some (by omega)), ok_bind,
            at'_ok (getD_some (by omega)), ok_bind]
          dsimp only
          have hp := h1 _ (List.mem_of_getElem? (getD_some (l := ns.v1) (i := ed.i) (by omega)))
          have hq := h2 _ (List.mem_of_getElem? (getD_some (l := ns.v2) (i := ed.j) (by omega)))
          generalize ns.v1.getD ed.i (0, 0) = p at *
          generalize ns.v2.getD ed.j (0, 0) = q at *
          obtain ⟨a1, e1, i1⟩ := hs.1.wr hp.1 hp.2 (some q)
          obtain ⟨a2, e2, i2⟩ := hs.2.wr hq.1 hq.2 (some p)
          rw [e1, ok_bind, e2, ok_bind]
          refine ⟨_, rfl, i1.congr ?_, i2.congr ?_⟩
          · intro x _ y _
            dsimp only
            by_cases e : x = p.1 ∧ y = p.2
            · rw [if_pos e, if_pos (by rw [e.1, e.2])]
            · rw [if_neg e, if_neg (fun hh => e ⟨by rw [← hh], by rw [← hh]⟩)]
          · intro x _ y _
            dsimp only
            by_cases e : x = q.1 ∧ y = q.2
            · rw [if_pos e, if_pos (by rw [e.1, e.2])]
            · rw [if_neg e, if_neg (fun hh => e ⟨by rw [← hh], by rw [← hh]⟩)])
  rw [Nat.zero_add, List.take_of_length_le (by omega)] at hc
  exact ⟨s', e, hc⟩

/-- An output matrix while the pixels `pre` have been visited. -/
def outCell (h : Nat) (b : BMap) (m : Pix → Option Pix) (pre : List Pix) (x y : Nat) : Option Nat :=
  some (if (x, y) ∈ pre then encodeMatch h b m y x else 0)

theorem writeCell_ok {b : BMap} {m : Pix → Option Pix} {mt : Arr (Option Pix)} (hmt : mt.Is w h fun x y => some (m (x, y)))
    {pre : List Pix} {p : Pix} (hp : p.1 < w ∧ p.2 < h) (hn : p ∉ pre) {o : Arr Nat} (ho : o.Is w h (outCell h b m pre)) :
    ∃ o', writeCell h (ofMap h w b) mt p.1 p.2 o = .ok o' ∧ o'.Is w h (outCell h b m (pre ++ [p])) := by
  have hstep : ∀ x y, outCell h b m (pre ++ [p]) x y =
      if x = p.1 ∧ y = p.2 then some (encodeMatch h b m p.2 p.1) else outCell h b m pre x y := by
    intro x y
    unfold outCell
    by_cases e : x = p.1 ∧ y = p.2
    · rw [if_pos e, if_pos (by rw [e.1, e.2]; simp), e.1, e.2]
    · have hne : (x, y) ≠ p := fun hh => e ⟨by rw [← hh], by rw [← hh]⟩
      rw [if_neg e]
      congr 1
      by_cases hm : (x, y) ∈ pre
      · rw [if_pos hm, if_pos (by simp [hm])]
      · rw [if_neg hm, if_neg (by simp [hm, hne])]
  have hz : outCell h b m pre p.1 p.2 = some 0 := by
    unfold outCell
    rw [if_neg hn]
  have hkeep : encodeMatch h b m p.2 p.1 = 0 → o.Is w h (outCell h b m (pre ++ [p])) := by
    intro e0
    refine ho.congr fun x _ y _ => ?_
    rw [hstep]
    split
    · rename_i e
      rw [e0, e.1, e.2, hz]
    · rfl
  unfold writeCell
  rw [(is_ofMap h w b).rd hp.1 hp.2 rfl, ok_bind]
  by_cases hb : b p.2 p.1 = true
  · rw [if_pos hb, hmt.rd hp.1 hp.2 rfl, ok_bind]
    cases hq : m (p.1, p.2) with
    | none =>
      refine ⟨_, rfl, hkeep ?_⟩
      unfold encodeMatch
      rw [if_pos hb, hq]
    | some q =>
      obtain ⟨a, ea, ha⟩ := ho.wr hp.1 hp.2 (q.1 * h + q.2 + 1)
      refine ⟨a, ea, ha.congr fun x _ y _ => ?_⟩
      rw [hstep]
      have : encodeMatch h b m p.2 p.1 = q.1 * h + q.2 + 1 := by
        unfold encodeMatch
        rw [if_pos hb, hq]
      rw [this]
  · rw [if_neg hb]
    refine ⟨_, rfl, hkeep ?_⟩
    unfold encodeMatch
    rw [if_neg hb]

theorem writeOut_ok {mt : Matches} {s : Arr (Option Pix) × Arr (Option Pix)} (hs : MtIs h w mt s) {o : Arr Nat × Arr Nat}
    (h1 : o.1.Is w h fun _ _ => some 0) (h2 : o.2.Is w h fun _ _ => some 0) :
    ∃ o', writeOut h w (ofMap h w b1) (ofMap h w b2) s o = .ok o' ∧ o'.1.Is w h (fun x y => some (encodeMatch h b1 mt.m1 y x)) ∧
      o'.2.Is w h (fun x y => some (encodeMatch h b2 mt.m2 y x)) := by
  unfold writeOut
  rw [pixels_loop (fun x y (o : Arr Nat × Arr Nat) => do
    let o1 ← writeCell h (ofMap h w b1) s.1 x y o.1
    let o2 ← writeCell h (ofMap h w b2) s.2 x y o.2
    Except.ok (o1, o2))]
  obtain ⟨o', e, i1, i2⟩ := foldlM_inv (f := fun (o : Arr Nat × Arr Nat) (p : Pix) => do
      let o1 ← writeCell h (ofMap h w b1) s.1 p.1 p.2 o.1
      let o2 ← writeCell h (ofMap h w b2) s.2 p.1 p.2 o.2
      Except.ok (o1, o2))
    (fun pre o => o.1.Is w h (outCell h b1 mt.m1 pre) ∧ o.2.Is w h (outCell h b2 mt.m2 pre)) (pixels h w) (s := o)
    ⟨h1.congr fun _ _ _ _ => by simp [outCell], h2.congr fun _ _ _ _ => by simp [outCell]⟩ (by
      intro pre p post o hl ⟨i1, i2⟩
      have hp : p.1 < w ∧ p.2 < h := mem_pixels.1 (by rw [hl]; simp)
      have hn : p ∉ pre := by
        have := nodup_pixels h w
        rw [hl, List.nodup_append] at this
        intro hmem
        exact this.2.2 p hmem p (by simp) rfl
      obtain ⟨a, ea, ha⟩ := writeCell_ok hs.1 hp hn i1
      obtain ⟨b, eb, hb⟩ := writeCell_ok hs.2 hp hn i2
      rw [ea, ok_bind, eb, ok_bind]
      exact ⟨_, rfl, ha, hb⟩)
  refine ⟨o', e, i1.congr ?_, i2.congr ?_⟩
  · intro x hx y hy
    unfold outCell
    rw [if_pos (mem_pixels.2 ⟨hx, hy⟩)]
  · intro x hx y hy
    unfold outCell
    rw [if_pos (mem_pixels.2 ⟨hx, hy⟩)]

end

end EdgeEval.MatchMem
