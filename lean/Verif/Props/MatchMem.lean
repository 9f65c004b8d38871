import Verif.Lemmas.MatchMemFinish
import Verif.Props.CsaMem
import Verif.Props.MatchFloat

/-!
# Property theorems C63: memory safety of the pixel correspondence

`MatchMem.matchEdgeMapsM` is `match.cc` with its arrays, vectors, loops and assertions (and `kofn.cc` and `csa.hh` with
theirs): every access is checked, and an access outside an array, the read of a cell nobody has written, the use of a null
pointer and a failed assertion are errors.
-/

namespace EdgeEval.Props

open EdgeEval EdgeEval.CsaMem EdgeEval.MatchMem

/-- Reading the arrays left by the run gives `r`: no cell is uninitialised. -/
structure Holds (h w : Nat) (r : MatchOut) (o : Out) : Prop where
  m1 : ∀ x < w, ∀ y < h, o.m1.rd x y = .ok (r.m1 y x)
  m2 : ∀ x < w, ∀ y < h, o.m2.rd x y = .ok (r.m2 y x)
  match1 : ∀ x < w, ∀ y < h, o.match1.rd x y = .ok (r.mt.m1 (x, y))
  match2 : ∀ x < w, ∀ y < h, o.match2.rd x y = .ok (r.mt.m2 (x, y))

section
variable {fl : ℚ → ℚ} {fuel h w : Nat} {b1 b2 : BMap} {md2 oc2 : ℚ} {xs : Nat → ℚ} {pos : Nat}

/-- The run up to the call of the solver. -/
theorem run_prefix (hx : UnitStream xs) (hmd : 0 ≤ md2) (hoc : md2 < oc2) :
    let ns1 := nodes1 h w md2 b1 b2
    let ns2 := nodes2 h w md2 b1 b2
    let n := ns1.length + ns2.length
    let g := (matchGraph h w b1 b2 md2 oc2 xs pos).map (toArc n)
    ∃ (o1 o2 : Arr Nat) (mt : Arr (Option Pix) × Arr (Option Pix)) (ns : NodeSt) (G : Arr Int),
      o1.Is w h (fun _ _ => some 0) ∧ o2.Is w h (fun _ _ => some 0) ∧ MtIs h w ⟨fun _ => none, fun _ => none⟩ mt ∧
      NodesOf h w md2 b1 b2 ns ∧ G.blk = graphBlk g ∧
      matchEdgeMapsM fl fuel h w (ofMap h w b1) (ofMap h w b2) md2 oc2 xs pos =
        if n = 0 then .ok ⟨o1, o2, mt.1, mt.2, 0⟩
        else finish fl fuel h w (ofMap h w b1) (ofMap h w b2) ns g.length (outlierWeight oc2) G (o1, o2) mt := by
  intro ns1 ns2 n g
  obtain ⟨o1, e1, i1⟩ := (Arr.is_new Nat w h).init 0
  obtain ⟨mt, e3, i3, i4⟩ := initMatch_ok h w
  obtain ⟨mb, e4, i5⟩ := mark_ok (h := h) (w := w) (md2 := md2) (b1 := b1) (b2 := b2)
  obtain ⟨ns, e5, hns⟩ := nodes_ok i5
  have e6 := edges_ok (oc2 := oc2) hoc i5 hns
  obtain ⟨G, e7, hG⟩ := graph_ok ns1.length ns2.length (outlierWeight oc2) (realEdges h w md2 b1 b2) xs hx pos realEdges_range
  have hlen : g.length = announcedM ns1.length ns2.length (realEdges h w md2 b1 b2).length := by
    rw [List.length_map]
    exact buildGraph_length _ _ _ _ xs pos hx
  refine ⟨o1, o1, mt, ns, G, i1, i1, ⟨i3, i4⟩, hns, hG, ?_⟩
  unfold matchEdgeMapsM
  rw [need_ok hmd, ok_bind, need_ok hoc, ok_bind, e1, ok_bind, ok_bind, e3, ok_bind, e4, ok_bind, e5, ok_bind, e6, ok_bind]
  dsimp only
  rw [hns.n1, hns.n2]
  by_cases hz : n = 0
  · rw [if_pos hz, if_pos (announced_zero_iff.mpr hz)]
  · rw [if_neg hz, if_neg (fun hh => hz (announced_zero_iff.mp hh))]
    rw [show graph (nodes1 h w md2 b1 b2).length (nodes2 h w md2 b1 b2).length _ (ceilSqrt (oc2 * (multiplier * multiplier : Nat)))
      (realEdges h w md2 b1 b2) xs pos = .ok G from e7, ok_bind, hlen]
    rfl

/-- The rest of the run, given the solver's result. -/
theorem run_finish (hx : UnitStream xs) {o1 o2 : Arr Nat} {mt : Arr (Option Pix) × Arr (Option Pix)} {ns : NodeSt}
    {G : Arr Int} {out : List InArc}
    (i1 : o1.Is w h (fun _ _ => some 0)) (i2 : o2.Is w h (fun _ _ => some 0))
    (i3 : MtIs h w ⟨fun _ => none, fun _ => none⟩ mt) (hns : NodesOf h w md2 b1 b2 ns) :
    let ns1 := nodes1 h w md2 b1 b2
    let ns2 := nodes2 h w md2 b1 b2
    let n := ns1.length + ns2.length
    let g := (matchGraph h w b1 b2 md2 oc2 xs pos).map (toArc n)
    let m := (out.map (ofArc n)).foldl (recordMatch ns1 ns2) ⟨fun _ => none, fun _ => none⟩
    IsPerfectMatching n g out → solve fl fuel (2 * n) g.length G.blk = .ok (out.map triple) →
    ∃ o, finish fl fuel h w (ofMap h w b1) (ofMap h w b2) ns g.length (outlierWeight oc2) G (o1, o2) mt = .ok o ∧
      Holds h w ⟨encodeMatch h b1 m.m1, encodeMatch h b2 m.m2, m⟩ o ∧
      o.overlayCount = (out.map (ofArc n)).countP fun e => e.c = ((outlierWeight oc2 * multiplier : Nat) : Int) := by
  intro ns1 ns2 n g m hm hs
  obtain ⟨h1, h2, h3, _, h5⟩ := sol_of_matching hm
  have hl : (out.map (ofArc n)).length = n := by simpa using h2.length_eq
  have htr : out.map triple = (out.map (ofArc n)).map fun e => triple (toArc n e) := by
    conv_lhs => rw [← h5]
    rw [List.map_map]
    rfl
  have hlo : (out.map triple).length = n := by rw [List.length_map]; simpa using hl
  obtain ⟨og, e1, hog⟩ := take_ok n (out.map (ofArc n)) hl
  have e2 := check_ok (ow := outlierWeight oc2) (ns := ns) hl hog (by rw [hns.n1, hns.v1]) (by rw [hns.n2, hns.v2]) (by
    intro e he
    rw [hns.v1, hns.v2]
    exact solutionOk_of_mem hx (h1 e he))
  obtain ⟨mt', e3, i3'⟩ := record_ok (h := h) (w := w) (ns := ns) hl hog (by rw [hns.n1, hns.v1]) (by rw [hns.n2, hns.v2])
    (by
      intro p hp
      rw [hns.v1] at hp
      exact mem_pixels.1 (List.mem_filter.1 hp).1)
    (by
      intro p hp
      rw [hns.v2] at hp
      exact mem_pixels.1 (List.mem_filter.1 hp).1) i3
  rw [hns.v1, hns.v2] at i3'
  obtain ⟨o', e4, j1, j2⟩ := writeOut_ok (b1 := b1) (b2 := b2) (o := (o1, o2)) i3' i1 i2
  unfold finish
  have hn : ns.n1 + ns.n2 = n := by rw [hns.n1, hns.n2]
  dsimp only
  rw [hn, hs, ok_bind, need_ok hlo, ok_bind, htr, e1, ok_bind, e2, ok_bind, e3, ok_bind, e4, ok_bind]
  refine ⟨_, rfl, ⟨?_, ?_, ?_, ?_⟩, rfl⟩
  · exact fun x hx y hy => j1.rd hx hy rfl
  · exact fun x hx y hy => j2.rd hx hy rfl
  · exact fun x hx y hy => i3'.1.rd hx hy rfl
  · exact fun x hx y hy => i3'.2.rd hx hy rfl

theorem graph_facts (hx : UnitStream xs) (hmd : 0 ≤ md2) (hoc : md2 < oc2) :
    let n := (nodes1 h w md2 b1 b2).length + (nodes2 h w md2 b1 b2).length
    let g := (matchGraph h w b1 b2 md2 oc2 xs pos).map (toArc n)
    WellFormedGraph n g ∧ (∃ M, IsPerfectMatching n g M) ∧ (0 < n → ∃ a ∈ g, a.cost ≠ 0) := by
  intro n g
  obtain ⟨_, hwf, _, _, hM, hnz⟩ := C13_graph h w b1 b2 md2 oc2 xs pos hx hmd hoc
  exact ⟨hwf, hM, hnz⟩

theorem run_some (hx : UnitStream xs) (hmd : 0 ≤ md2) (hoc : md2 < oc2) {r : MatchOut}
    (hr : matchWith (csaSolveF fl fuel) h w b1 b2 md2 oc2 xs pos = some r) :
    ∃ o, matchEdgeMapsM fl fuel h w (ofMap h w b1) (ofMap h w b2) md2 oc2 xs pos = .ok o ∧ Holds h w r o ∧
      (((nodes1 h w md2 b1 b2).length + (nodes2 h w md2 b1 b2).length = 0 ∧ o.overlayCount = 0) ∨
        ∃ sol : List GEdge, (∀ e ∈ sol, e ∈ matchGraph h w b1 b2 md2 oc2 xs pos) ∧
          (sol.map GEdge.i).Nodup ∧ (sol.map GEdge.j).Nodup ∧
          r.mt = sol.foldl (recordMatch (nodes1 h w md2 b1 b2) (nodes2 h w md2 b1 b2)) ⟨fun _ => none, fun _ => none⟩ ∧
          o.overlayCount = sol.countP fun e => e.c = ((outlierWeight oc2 * multiplier : Nat) : Int)) := by
  obtain ⟨o1, o2, mt, ns, G, i1, i2, i3, hns, hG, e⟩ :=
    run_prefix (fl := fl) (fuel := fuel) (h := h) (w := w) (b1 := b1) (b2 := b2) (pos := pos) hx hmd hoc
  obtain ⟨hwf, ⟨M, hM⟩, _⟩ := graph_facts (h := h) (w := w) (b1 := b1) (b2 := b2) (pos := pos) hx hmd hoc
  have heq := matchWith_eq (h := h) (w := w) (b1 := b1) (b2 := b2) (pos := pos) (csaSolveF_valid fl fuel) hx hmd hoc
  rw [hr] at heq
  dsimp only at heq
  by_cases hz : (nodes1 h w md2 b1 b2).length + (nodes2 h w md2 b1 b2).length = 0
  · rw [if_pos hz] at heq e
    obtain rfl := Option.some.inj heq
    refine ⟨_, e, ⟨?_, ?_, ?_, ?_⟩, .inl ⟨hz, rfl⟩⟩
    · exact fun x hx y hy => i1.rd hx hy rfl
    · exact fun x hx y hy => i2.rd hx hy rfl
    · exact fun x hx y hy => i3.1.rd hx hy rfl
    · exact fun x hx y hy => i3.2.rd hx hy rfl
  · rw [if_neg hz] at heq e
    obtain ⟨out, hout, rfl⟩ := Option.map_eq_some_iff.mp heq.symm
    have hs := (C62_same_result fl _ fuel _ out hwf (matching_arcs hM)).2 hout
    have hm := csaSolveF_valid fl fuel _ _ out hwf hout
    rw [← hG] at hs
    obtain ⟨o, eo, ho, hc⟩ := run_finish (xs := xs) (pos := pos) (oc2 := oc2) hx i1 i2 i3 hns hm hs
    obtain ⟨h1, h2, h3, _, _⟩ := sol_of_matching hm
    exact ⟨o, e.trans eo, ho, .inr ⟨_, h1, h2.nodup_iff.2 List.nodup_range, h3.nodup_iff.2 List.nodup_range, rfl, hc⟩⟩

/-- C63: whenever the matching of the abstract model has a result, the code on arrays runs to its end without a bad access or
a failed assertion and its two output matrices (and its two match arrays) hold that result, every cell initialised. -/
theorem C63_same_result (fl : ℚ → ℚ) (fuel h w : Nat) (b1 b2 : BMap) (md2 oc2 : ℚ) (xs : Nat → ℚ) (pos : Nat)
    (hx : ∀ i, 0 ≤ xs i ∧ xs i < 1) (hmd : 0 ≤ md2) (hoc : md2 < oc2) (r : MatchOut)
    (hr : matchWith (csaSolveF fl fuel) h w b1 b2 md2 oc2 xs pos = some r) :
    ∃ o, matchEdgeMapsM fl fuel h w (ofMap h w b1) (ofMap h w b2) md2 oc2 xs pos = .ok o ∧ Holds h w r o := by
  obtain ⟨o, e, ho, _⟩ := run_some hx hmd hoc hr
  exact ⟨o, e, ho⟩

/-- C63: for every image size, every pair of edge maps, every pair of limits and every random stream, at no point of the run
is there an access outside an array, a read of an uninitialised cell, a null pointer or a failed assertion: the run has its
result, or the solver is still running, and then the abstract solver is, too. -/
theorem C63_no_bad_access (fl : ℚ → ℚ) (H : RoundsNearest fl) (fuel h w : Nat) (b1 b2 : BMap) (md2 oc2 : ℚ) (xs : Nat → ℚ)
    (pos : Nat) (hx : ∀ i, 0 ≤ xs i ∧ xs i < 1) (hmd : 0 ≤ md2) (hoc : md2 < oc2) :
    (matchEdgeMapsM fl fuel h w (ofMap h w b1) (ofMap h w b2) md2 oc2 xs pos = .error .outOfFuel ∧
        matchWith (csaSolveF fl fuel) h w b1 b2 md2 oc2 xs pos = none) ∨
      ∃ o r, matchEdgeMapsM fl fuel h w (ofMap h w b1) (ofMap h w b2) md2 oc2 xs pos = .ok o ∧ Holds h w r o ∧
        matchWith (csaSolveF fl fuel) h w b1 b2 md2 oc2 xs pos = some r := by
  cases hr : matchWith (csaSolveF fl fuel) h w b1 b2 md2 oc2 xs pos with
  | some r =>
    obtain ⟨o, e, ho⟩ := C63_same_result fl fuel h w b1 b2 md2 oc2 xs pos hx hmd hoc r hr
    exact .inr ⟨o, r, e, ho, rfl⟩
  | none =>
    refine .inl ⟨?_, rfl⟩
    obtain ⟨o1, o2, mt, ns, G, i1, i2, i3, hns, hG, e⟩ :=
      run_prefix (fl := fl) (fuel := fuel) (h := h) (w := w) (b1 := b1) (b2 := b2) (pos := pos) hx hmd hoc
    obtain ⟨hwf, ⟨M, hM⟩, hnz⟩ := graph_facts (h := h) (w := w) (b1 := b1) (b2 := b2) (pos := pos) hx hmd hoc
    have heq := matchWith_eq (h := h) (w := w) (b1 := b1) (b2 := b2) (pos := pos) (csaSolveF_valid fl fuel) hx hmd hoc
    rw [hr] at heq
    dsimp only at heq
    by_cases hz : (nodes1 h w md2 b1 b2).length + (nodes2 h w md2 b1 b2).length = 0
    · rw [if_pos hz] at heq
      exact absurd heq (by simp)
    · rw [if_neg hz] at heq e
      have hout := Option.map_eq_none_iff.mp heq.symm
      have hs : solve fl fuel (2 * ((nodes1 h w md2 b1 b2).length + (nodes2 h w md2 b1 b2).length))
          ((matchGraph h w b1 b2 md2 oc2 xs pos).map (toArc
            ((nodes1 h w md2 b1 b2).length + (nodes2 h w md2 b1 b2).length))).length G.blk = .error .outOfFuel := by
        rcases C62_no_bad_access fl H _ fuel _ hwf (matching_arcs hM) (hnz (by omega)) with hh | ⟨M', _, hh⟩
        · rw [hG]; exact hh
        · rw [C62_same_result fl _ fuel _ M' hwf (matching_arcs hM)] at hh
          rw [hh] at hout
          exact absurd hout (by simp)
      rw [e]
      unfold finish
      have hn : ns.n1 + ns.n2 = (nodes1 h w md2 b1 b2).length + (nodes2 h w md2 b1 b2).length := by rw [hns.n1, hns.n2]
      dsimp only
      rw [hn, hs]
      rfl

/-- C63: in exact arithmetic the code on arrays always stops. -/
theorem C63_terminates (h w : Nat) (b1 b2 : BMap) (md2 oc2 : ℚ) (xs : Nat → ℚ) (pos : Nat)
    (hx : ∀ i, 0 ≤ xs i ∧ xs i < 1) (hmd : 0 ≤ md2) (hoc : md2 < oc2) :
    ∃ F r, ∀ fuel, F ≤ fuel → matchEdgeMaps fuel h w b1 b2 md2 oc2 xs pos = some r ∧
      ∃ o, matchEdgeMapsM id fuel h w (ofMap h w b1) (ofMap h w b2) md2 oc2 xs pos = .ok o ∧ Holds h w r o := by
  obtain ⟨F, r, hF⟩ := matchEdgeMaps_total (h := h) (w := w) (b1 := b1) (b2 := b2) (pos := pos) hx hmd hoc
  refine ⟨F, r, fun fuel hf => ⟨hF fuel hf, ?_⟩⟩
  apply C63_same_result id fuel h w b1 b2 md2 oc2 xs pos hx hmd hoc r
  have e : csaSolveF id fuel = csaSolve fuel := by
    funext n g
    exact C56_no_rounding fuel n g
  rw [e]
  exact hF fuel hf

/-- C63: what the arrays say, without the abstract model: wherever the first output matrix is not zero it is the number (column by
column, from 1) of an edge pixel of the second map within the tolerance, and the second matrix points back; and vice versa. -/
theorem C63_matching (fl : ℚ → ℚ) (H : RoundsNearest fl) (fuel h w : Nat) (b1 b2 : BMap) (md2 oc2 : ℚ) (xs : Nat → ℚ) (pos : Nat)
    (hx : ∀ i, 0 ≤ xs i ∧ xs i < 1) (hmd : 0 ≤ md2) (hoc : md2 < oc2) (o : Out)
    (ho : matchEdgeMapsM fl fuel h w (ofMap h w b1) (ofMap h w b2) md2 oc2 xs pos = .ok o) (x y : Nat) (hxx : x < w) (hy : y < h) :
    ∃ v1 v2, o.m1.rd x y = .ok v1 ∧ o.m2.rd x y = .ok v2 ∧
      (v1 ≠ 0 → b1 y x = true ∧ ∃ x' y', x' < w ∧ y' < h ∧ v1 = x' * h + y' + 1 ∧ b2 y' x' = true ∧
        (((x : ℚ) - x') ^ 2 + ((y : ℚ) - y') ^ 2) ≤ md2 ∧ o.m2.rd x' y' = .ok (x * h + y + 1)) ∧
      (v2 ≠ 0 → b2 y x = true ∧ ∃ x' y', x' < w ∧ y' < h ∧ v2 = x' * h + y' + 1 ∧ b1 y' x' = true ∧
        (((x : ℚ) - x') ^ 2 + ((y : ℚ) - y') ^ 2) ≤ md2 ∧ o.m1.rd x' y' = .ok (x * h + y + 1)) := by
  rcases C63_no_bad_access fl H fuel h w b1 b2 md2 oc2 xs pos hx hmd hoc with ⟨e, _⟩ | ⟨o', r, e, hh, hr⟩
  · rw [e] at ho
    cases ho
  · rw [e] at ho
    obtain rfl := Except.ok.inj ho
    obtain ⟨good, em1, em2⟩ := matchWith_good (csaSolveF_valid fl fuel) hx hmd hoc hr
    have hd : ∀ p q : Pix, ((pixDist2 p q : Nat) : ℚ) = ((p.1 : ℚ) - q.1) ^ 2 + ((p.2 : ℚ) - q.2) ^ 2 := by
      intro p q
      unfold pixDist2
      have c : ∀ z : Int, ((z.natAbs : Nat) : ℚ) ^ 2 = (z : ℚ) ^ 2 := by
        intro z
        rw [← Int.cast_natCast, Int.natCast_natAbs, Int.cast_abs, sq_abs]
      push_cast
      rw [c, c]
      push_cast
      ring
    refine ⟨_, _, hh.m1 x hxx y hy, hh.m2 x hxx y hy, fun hne => ?_, fun hne => ?_⟩
    · rw [em1] at hne ⊢
      unfold encodeMatch at hne ⊢
      by_cases hb : b1 y x = true
      · rw [if_pos hb] at hne ⊢
        refine ⟨hb, ?_⟩
        cases hq : r.mt.m1 (x, y) with
        | none => rw [hq] at hne; exact absurd rfl hne
        | some q =>
          obtain ⟨_, ⟨q1, q2, q3⟩, q4⟩ := good.ok _ _ hq
          refine ⟨q.1, q.2, q1, q2, rfl, q3, ?_, ?_⟩
          · rw [hd] at q4
            exact q4
          · rw [hh.m2 _ q1 _ q2, em2]
            unfold encodeMatch
            rw [if_pos q3, show ((q.1, q.2) : Pix) = q from rfl, (good.sym _ _).1 hq]
      · rw [if_neg hb] at hne
        exact absurd rfl hne
    · rw [em2] at hne ⊢
      unfold encodeMatch at hne ⊢
      by_cases hb : b2 y x = true
      · rw [if_pos hb] at hne ⊢
        refine ⟨hb, ?_⟩
        cases hq : r.mt.m2 (x, y) with
        | none => rw [hq] at hne; exact absurd rfl hne
        | some q =>
          have hq' := (good.sym _ _).2 hq
          obtain ⟨⟨q1, q2, q3⟩, _, q4⟩ := good.ok _ _ hq'
          refine ⟨q.1, q.2, q1, q2, rfl, q3, ?_, ?_⟩
          · rw [hd] at q4
            have : ((x : ℚ) - q.1) ^ 2 + ((y : ℚ) - q.2) ^ 2 = ((q.1 : ℚ) - x) ^ 2 + ((q.2 : ℚ) - y) ^ 2 := by ring
            rw [this]
            exact q4
          · rw [hh.m1 _ q1 _ q2, em1]
            unfold encodeMatch
            rw [if_pos q3, show ((q.1, q.2) : Pix) = q from rfl, hq']
      · rw [if_neg hb] at hne
        exact absurd rfl hne

/-- C63: limits that violate the precondition (`maxDist ≥ 0`, `outlierCost > maxDist`) stop the program at an assertion, before
any array is allocated. -/
theorem C63_precondition (fl : ℚ → ℚ) (fuel h w : Nat) (b1 b2 : Arr Bool) (md2 oc2 : ℚ) (xs : Nat → ℚ) (pos : Nat)
    (hbad : md2 < 0 ∨ oc2 ≤ md2) : matchEdgeMapsM fl fuel h w b1 b2 md2 oc2 xs pos = .error .assertion := by
  unfold matchEdgeMapsM need
  rcases hbad with hb | hb
  · rw [if_neg (by linarith)]
    rfl
  · by_cases h0 : 0 ≤ md2
    · rw [if_pos h0, ok_bind, if_neg (by linarith)]
      rfl
    · rw [if_neg h0]
      rfl

/-- C63: the sampler writes exactly its first `k` cells: they hold the sample, every other cell of the block is as before, and a
block of `k` cells is enough. -/
theorem C63_sampler (k n : Nat) (xs : Nat → ℚ) (pos : Nat) (b : Blk Int) (hx : ∀ i, 0 ≤ xs i ∧ xs i < 1) (hk : k ≤ n)
    (hb : k ≤ b.size) :
    ∃ b', kOfNM k n xs pos b = .ok ((kOfN k n xs pos).2, b') ∧ b'.size = b.size ∧
      (∀ i < k, ∃ v : Nat, (kOfN k n xs pos).1[i]? = some v ∧ b'.rd i = .ok (v : Int)) ∧ ∀ i, k ≤ i → b'.rd i = b.rd i := by
  obtain ⟨l1, _, _⟩ := C14_kofn k n xs pos hx hk
  refine ⟨_, kOfNM_ok k n xs hx pos b hk hb, rfl, fun i hi => ?_, fun i hi => ?_⟩
  · have hi' : i < (kOfN k n xs pos).1.length := by omega
    refine ⟨_, List.getElem?_eq_getElem hi', ?_⟩
    have := put_has (b := b) (off := 0) (l := (kOfN k n xs pos).1) (by omega) hi'
    rw [Nat.zero_add] at this
    exact this.rd
  · unfold Blk.rd put
    dsimp only
    have : ¬ (0 ≤ i ∧ i < 0 + (kOfN k n xs pos).1.length) := by omega
    simp only [this, if_false]

theorem overlay_kind (hmd : 0 ≤ md2) (hoc : md2 < oc2) (hx : UnitStream xs) {e : GEdge}
    (he : e ∈ matchGraph h w b1 b2 md2 oc2 xs pos) (hc : e.c = ((outlierWeight oc2 * multiplier : Nat) : Int)) :
    (∃ i, i < (nodes1 h w md2 b1 b2).length ∧ e.i = i ∧ (nodes2 h w md2 b1 b2).length ≤ e.j) ∨
      (∃ j, j < (nodes2 h w md2 b1 b2).length ∧ e.j = j ∧ (nodes1 h w md2 b1 b2).length ≤ e.i) := by
  have how := outlierWeight_pos hmd hoc
  have hlt : outlierWeight oc2 < outlierWeight oc2 * multiplier := by unfold multiplier; omega
  rcases graph_kind hx he with ⟨me, hme, rfl⟩ | ⟨i, j, hi, hj, hne, rfl⟩ | ⟨i, j, hi, hj, hne, rfl⟩ | ⟨i, j, hi, hj, rfl⟩ |
    ⟨i, hi, rfl⟩ | ⟨i, hi, rfl⟩
  · have hd := (mem_realEdges.1 hme).2.2.2
    have : rint100 me.d2 ≤ outlierWeight oc2 := by
      apply rint100_le_ow
      have h1 : oc2 * ((multiplier * multiplier : Nat) : ℚ) ≤ (outlierWeight oc2 : ℚ) ^ 2 := by
        have := (ceilSqrt_le_iff (q := oc2 * ((multiplier * multiplier : Nat) : ℚ)) (k := outlierWeight oc2)).1 (le_refl _)
        first | exact this | (push_cast at this ⊢; nlinarith [this])
      unfold multiplier at h1
      push_cast at h1
      have : ((outlierWeight oc2 : ℚ) / 100) ^ 2 = (outlierWeight oc2 : ℚ) ^ 2 / 10000 := by ring
      rw [this, lt_div_iff₀ (by norm_num)]
      linarith
    simp only at hc
    have : (rint100 me.d2 : Int) = ((outlierWeight oc2 * multiplier : Nat) : Int) := hc
    omega
  · have : ((outlierWeight oc2 : Nat) : Int) = ((outlierWeight oc2 * multiplier : Nat) : Int) := hc
    omega
  · have : ((outlierWeight oc2 : Nat) : Int) = ((outlierWeight oc2 * multiplier : Nat) : Int) := hc
    omega
  · have : ((outlierWeight oc2 : Nat) : Int) = ((outlierWeight oc2 * multiplier : Nat) : Int) := hc
    omega
  · exact .inl ⟨i, hi, rfl, by simp⟩
  · exact .inr ⟨i, hi, rfl, by simp⟩

theorem countP_le_filters {α : Type} (P Q R : α → Bool) (l : List α) (hl : ∀ a ∈ l, P a = true → Q a = true ∨ R a = true) :
    l.countP P ≤ (l.filter Q).length + (l.filter R).length := by
  induction l with
  | nil => simp
  | cons a l ih =>
    have ih := ih fun x hx => hl x (List.mem_cons_of_mem _ hx)
    have ha := hl a (by simp)
    rw [List.countP_cons, List.filter_cons, List.filter_cons]
    generalize P a = pa at *
    generalize Q a = qa at *
    generalize R a = ra at *
    cases pa <;> cases qa <;> cases ra <;> simp at ha ⊢ <;> omega

/-- C63: the overlay edges counted for the warning "the match is not perfect" are pixels left unmatched although a partner was within
the tolerance: their number is at most the number of such pixels. -/
theorem C63_overlay (fl : ℚ → ℚ) (H : RoundsNearest fl) (fuel h w : Nat) (b1 b2 : BMap) (md2 oc2 : ℚ) (xs : Nat → ℚ) (pos : Nat)
    (hx : ∀ i, 0 ≤ xs i ∧ xs i < 1) (hmd : 0 ≤ md2) (hoc : md2 < oc2) (o : Out)
    (ho : matchEdgeMapsM fl fuel h w (ofMap h w b1) (ofMap h w b2) md2 oc2 xs pos = .ok o) :
    o.overlayCount ≤ ((nodes1 h w md2 b1 b2).filter fun p => o.match1.rd p.1 p.2 matches .ok none).length +
      ((nodes2 h w md2 b1 b2).filter fun p => o.match2.rd p.1 p.2 matches .ok none).length := by
  rcases C63_no_bad_access fl H fuel h w b1 b2 md2 oc2 xs pos hx hmd hoc with ⟨e, _⟩ | ⟨_, r, _, _, hr⟩
  · rw [e] at ho
    cases ho
  obtain ⟨o', e, hh, hcase⟩ := run_some hx hmd hoc hr
  rw [e] at ho
  obtain rfl := Except.ok.inj ho
  rcases hcase with ⟨_, h0⟩ | ⟨sol, hg, ni, nj, hmt, hcnt⟩
  · rw [h0]
    exact Nat.zero_le _
  rw [hcnt]
  have hinj1 := nodup_nodes1 h w md2 b1 b2
  have hinj2 := nodup_nodes2 h w md2 b1 b2
  have hn1 : ∀ p ∈ nodes1 h w md2 b1 b2, p.1 < w ∧ p.2 < h := fun p hp => mem_pixels.1 (List.mem_filter.1 hp).1
  have hn2 : ∀ p ∈ nodes2 h w md2 b1 b2, p.1 < w ∧ p.2 < h := fun p hp => mem_pixels.1 (List.mem_filter.1 hp).1
  have r1 := fun p q => recordMatch_m1 hinj1 sol ni (ns2 := nodes2 h w md2 b1 b2) ⟨fun _ => none, fun _ => none⟩ p q
  have r2 := fun p q => recordMatch_m2 hinj2 sol nj (ns1 := nodes1 h w md2 b1 b2) ⟨fun _ => none, fun _ => none⟩ p q
  rw [← hmt] at r1 r2
  -- the two kinds of overlay edges
  have hsplit : (sol.countP fun e => e.c = ((outlierWeight oc2 * multiplier : Nat) : Int)) ≤
      (sol.filter fun e => decide (e.i < (nodes1 h w md2 b1 b2).length ∧ (nodes2 h w md2 b1 b2).length ≤ e.j)).length +
      (sol.filter fun e => decide (e.j < (nodes2 h w md2 b1 b2).length ∧ (nodes1 h w md2 b1 b2).length ≤ e.i)).length := by
    apply countP_le_filters
    intro e he hc
    rcases overlay_kind (h := h) (w := w) (b1 := b1) (b2 := b2) (pos := pos) hmd hoc hx (hg e he) (by simpa using hc) with
      ⟨i, hi, ei, hj⟩ | ⟨j, hj, ej, hi⟩
    · exact .inl (decide_eq_true ⟨by omega, hj⟩)
    · exact .inr (decide_eq_true ⟨by omega, hi⟩)
  refine hsplit.trans (Nat.add_le_add ?_ ?_)
  · have hsub : ((sol.filter fun e => decide (e.i < (nodes1 h w md2 b1 b2).length ∧ (nodes2 h w md2 b1 b2).length ≤ e.j)).map
        fun e => (nodes1 h w md2 b1 b2).getD e.i (0, 0)).Subperm
        ((nodes1 h w md2 b1 b2).filter fun p => o'.match1.rd p.1 p.2 matches .ok none) := by
      apply List.subperm_of_subset
      · apply List.Nodup.of_map (fun p => (nodes1 h w md2 b1 b2).idxOf p)
        have e0 : (sol.filter fun e => decide (e.i < (nodes1 h w md2 b1 b2).length ∧ (nodes2 h w md2 b1 b2).length ≤ e.j)).map
            (fun e => (nodes1 h w md2 b1 b2).idxOf ((nodes1 h w md2 b1 b2).getD e.i (0, 0))) =
            (sol.filter fun e => decide (e.i < (nodes1 h w md2 b1 b2).length ∧ (nodes2 h w md2 b1 b2).length ≤ e.j)).map GEdge.i := by
          apply List.map_congr_left
          intro e he
          have := (List.mem_filter.1 he).2
          simp only [decide_eq_true_eq] at this
          exact idxOf_getD hinj1 this.1
        rw [List.map_map]
        show (List.map (fun e : GEdge => (nodes1 h w md2 b1 b2).idxOf ((nodes1 h w md2 b1 b2).getD e.i (0, 0))) _).Nodup
        rw [e0]
        exact List.Nodup.sublist (List.filter_sublist.map _) ni
      · intro p hp
        obtain ⟨e, he, rfl⟩ := List.mem_map.1 hp
        obtain ⟨he, hc⟩ := List.mem_filter.1 he
        simp only [decide_eq_true_eq] at hc
        have hmem := List.mem_of_getElem? (getD_some (l := nodes1 h w md2 b1 b2) hc.1)
        refine List.mem_filter.2 ⟨hmem, ?_⟩
        have hb := hn1 _ hmem
        have hnone : r.mt.m1 ((nodes1 h w md2 b1 b2).getD e.i (0, 0)) = none := by
          cases hq : r.mt.m1 ((nodes1 h w md2 b1 b2).getD e.i (0, 0)) with
          | none => rfl
          | some q =>
            rcases (r1 _ q).1 hq with ⟨e', he', g1, g2, g3, g4⟩ | ⟨hx, _⟩
            · have hii : e'.i = e.i := by
                rw [← idxOf_getD hinj1 g1, g3, idxOf_getD hinj1 hc.1]
              obtain rfl : e' = e := List.inj_on_of_nodup_map ni he' he hii
              omega
            · cases hx
        rw [hh.match1 _ hb.1 _ hb.2, show (((nodes1 h w md2 b1 b2).getD e.i (0, 0)).1, ((nodes1 h w md2 b1 b2).getD e.i (0, 0)).2) =
          (nodes1 h w md2 b1 b2).getD e.i (0, 0) from rfl, hnone]
    simpa using hsub.length_le
  · have hsub : ((sol.filter fun e => decide (e.j < (nodes2 h w md2 b1 b2).length ∧ (nodes1 h w md2 b1 b2).length ≤ e.i)).map
        fun e => (nodes2 h w md2 b1 b2).getD e.j (0, 0)).Subperm
        ((nodes2 h w md2 b1 b2).filter fun p => o'.match2.rd p.1 p.2 matches .ok none) := by
      apply List.subperm_of_subset
      · apply List.Nodup.of_map (fun p => (nodes2 h w md2 b1 b2).idxOf p)
        have e0 : (sol.filter fun e => decide (e.j < (nodes2 h w md2 b1 b2).length ∧ (nodes1 h w md2 b1 b2).length ≤ e.i)).map
            (fun e => (nodes2 h w md2 b1 b2).idxOf ((nodes2 h w md2 b1 b2).getD e.j (0, 0))) =
            (sol.filter fun e => decide (e.j < (nodes2 h w md2 b1 b2).length ∧ (nodes1 h w md2 b1 b2).length ≤ e.i)).map GEdge.j := by
          apply List.map_congr_left
          intro e he
          have := (List.mem_filter.1 he).2
          simp only [decide_eq_true_eq] at this
          exact idxOf_getD hinj2 this.1
        rw [List.map_map]
        show (List.map (fun e : GEdge => (nodes2 h w md2 b1 b2).idxOf ((nodes2 h w md2 b1 b2).getD e.j (0, 0))) _).Nodup
        rw [e0]
        exact List.Nodup.sublist (List.filter_sublist.map _) nj
      · intro p hp
        obtain ⟨e, he, rfl⟩ := List.mem_map.1 hp
        obtain ⟨he, hc⟩ := List.mem_filter.1 he
        simp only [decide_eq_true_eq] at hc
        have hmem := List.mem_of_getElem? (getD_some (l := nodes2 h w md2 b1 b2) hc.1)
        refine List.mem_filter.2 ⟨hmem, ?_⟩
        have hb := hn2 _ hmem
        have hnone : r.mt.m2 ((nodes2 h w md2 b1 b2).getD e.j (0, 0)) = none := by
          cases hq : r.mt.m2 ((nodes2 h w md2 b1 b2).getD e.j (0, 0)) with
          | none => rfl
          | some q =>
            rcases (r2 q _).1 hq with ⟨e', he', g1, g2, g3, g4⟩ | ⟨hx, _⟩
            · have hii : e'.j = e.j := by
                rw [← idxOf_getD hinj2 g2, g4, idxOf_getD hinj2 hc.1]
              obtain rfl : e' = e := List.inj_on_of_nodup_map nj he' he hii
              omega
            · cases hx
        rw [hh.match2 _ hb.1 _ hb.2, show (((nodes2 h w md2 b1 b2).getD e.j (0, 0)).1, ((nodes2 h w md2 b1 b2).getD e.j (0, 0)).2) =
          (nodes2 h w md2 b1 b2).getD e.j (0, 0) from rfl, hnone]
    simpa using hsub.length_le

end

/-- Two 3x4 maps with three edge pixels each, tolerance 1.5: the run on arrays matches two pairs; the values are written column by column. -/
def demo1 : BMap := fun y x => decide ((y, x) ∈ [(0, 0), (1, 2), (2, 3)])
def demo2 : BMap := fun y x => decide ((y, x) ∈ [(0, 1), (1, 2), (2, 0)])

example : ∃ F, ∀ fuel, F ≤ fuel → ∃ o, matchEdgeMapsM id fuel 3 4 (ofMap 3 4 demo1) (ofMap 3 4 demo2) (9 / 4) 9 (fun _ => 1 / 2) 0 = .ok o := by
  obtain ⟨F, r, hF⟩ := C63_terminates 3 4 demo1 demo2 (9 / 4) 9 (fun _ => 1 / 2) 0 (fun _ => ⟨by norm_num, by norm_num⟩) (by norm_num)
    (by norm_num)
  exact ⟨F, fun fuel hf => let ⟨_, o, e, _⟩ := hF fuel hf; ⟨o, e⟩⟩

/-- The hypotheses are needed: a block with fewer than `k` cells is overrun. -/
example : (match kOfNM 2 3 (fun _ => 0) 0 (malloc Int 1) with | .error e => some e | .ok _ => none) = some .outOfBounds := by
  decide +kernel

/-- The values read back from a run. -/
def readBack (h w : Nat) : Except MErr Out → Option (List Nat × List Nat × Nat)
  | .ok o => some ((pixels h w).map fun p => match o.m1.rd p.1 p.2 with | .ok v => v | .error _ => 99,
      (pixels h w).map fun p => match o.m2.rd p.1 p.2 with | .ok v => v | .error _ => 99, o.overlayCount)
  | .error _ => none

example : readBack 3 4 (matchEdgeMapsM id 200 3 4 (ofMap 3 4 demo1) (ofMap 3 4 demo2) (9 / 4) 9 (fun _ => 1 / 2) 0) =
    some ([4, 0, 0, 0, 0, 0, 0, 8, 0, 0, 0, 0], [0, 0, 0, 1, 0, 0, 0, 8, 0, 0, 0, 0], 0) := by decide +kernel

end EdgeEval.Props
