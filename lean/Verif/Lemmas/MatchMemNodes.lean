import Verif.Lemmas.MatchMem

/-! # Lemmas on the memory-level model of `match.cc`: nodes and edges -/

namespace EdgeEval.MatchMem

open EdgeEval EdgeEval.CsaMem

section
variable {h w : Nat} {md2 oc2 : ℚ} {b1 b2 : BMap}

/-- Content of `pixToNode` when the pixels `pre` have been visited and `mb` says which are nodes. -/
def nodeCell (mb : Pix → Bool) (pre : List Pix) (x y : Nat) : Option Int :=
  if (x, y) ∈ pre then some (if mb (x, y) then ((pre.filter mb).idxOf (x, y) : Int) else -1) else none

theorem nodeCell_step (mb : Pix → Bool) {pre : List Pix} {p : Pix} (hn : p ∉ pre) (x y : Nat) :
    nodeCell mb (pre ++ [p]) x y =
      if x = p.1 ∧ y = p.2 then some (if mb p then ((pre.filter mb).length : Int) else -1) else nodeCell mb pre x y := by
  obtain ⟨px, py⟩ := p
  unfold nodeCell
  by_cases e : x = px ∧ y = py
  · obtain ⟨rfl, rfl⟩ := e
    have h1 : (x, y) ∈ pre ++ [(x, y)] := by simp
    have h2 : x = (x, y).1 ∧ y = (x, y).2 := ⟨rfl, rfl⟩
    simp only [h1, if_true, and_self]
    by_cases hm : mb (x, y) = true
    · simp only [hm, if_true]
      rw [List.filter_append, List.filter_cons_of_pos hm, List.idxOf_append_of_notMem]
      · simp
      · simp [hn]
    · simp only [hm]
      rfl
  · have hne : (x, y) ≠ (px, py) := by simpa using e
    simp only [e, if_false]
    by_cases hm : (x, y) ∈ pre
    · have h1 : (x, y) ∈ pre ++ [(px, py)] := by simp [hm]
      simp only [h1, hm, if_true]
      by_cases hb : mb (x, y) = true
      · simp only [hb, if_true]
        rw [List.filter_append, List.idxOf_append_of_mem (by simp [hm, hb])]
      · simp only [hb]
        rfl
    · have h1 : (x, y) ∉ pre ++ [(px, py)] := by
        rw [List.mem_append, List.mem_singleton]
        rintro (h | h)
        · exact hm h
        · exact hne h
      simp only [h1, hm, if_false]

/-- The invariant of the node loop. -/
structure NodeInv (h w : Nat) (m1 m2 : Pix → Bool) (pre : List Pix) (s : NodeSt) : Prop where
  p1 : s.p1.Is w h (nodeCell m1 pre)
  p2 : s.p2.Is w h (nodeCell m2 pre)
  v1 : s.v1 = pre.filter m1
  v2 : s.v2 = pre.filter m2
  n1 : s.n1 = (pre.filter m1).length
  n2 : s.n2 = (pre.filter m2).length

theorem filter_snoc {α : Type} (f : α → Bool) (l : List α) (a : α) : (l ++ [a]).filter f = l.filter f ++ if f a then [a] else [] := by
  rw [List.filter_append]
  by_cases h : f a = true <;> simp [h]

theorem addNodes_ok {m1 m2 : Pix → Bool} {m : Arr Bool × Arr Bool} (hm1 : m.1.Is w h fun x y => some (m1 (x, y)))
    (hm2 : m.2.Is w h fun x y => some (m2 (x, y))) {pre : List Pix} {p : Pix} (hp : p.1 < w ∧ p.2 < h) (hn : p ∉ pre) {s : NodeSt}
    (inv : NodeInv h w m1 m2 pre s) : ∃ s', addNodes m p.1 p.2 s = .ok s' ∧ NodeInv h w m1 m2 (pre ++ [p]) s' := by
  obtain ⟨px, py⟩ := p
  obtain ⟨a, ea, ha⟩ := inv.p1.wr hp.1 hp.2 (-1)
  obtain ⟨b, eb, hb⟩ := inv.p2.wr hp.1 hp.2 (-1)
  obtain ⟨a', ea', ha'⟩ := ha.wr hp.1 hp.2 (s.n1 : Int)
  obtain ⟨b', eb', hb'⟩ := hb.wr hp.1 hp.2 (s.n2 : Int)
  unfold addNodes
  rw [ea, ok_bind, eb, ok_bind]
  simp only at *
  unfold addNode1
  rw [hm1.rd hp.1 hp.2 rfl, ok_bind]
  have c1 : ∀ x y, nodeCell m1 (pre ++ [(px, py)]) x y =
      if x = px ∧ y = py then some (if m1 (px, py) then (s.n1 : Int) else -1) else nodeCell m1 pre x y := by
    intro x y
    rw [nodeCell_step m1 hn, inv.n1]
  have c2 : ∀ x y, nodeCell m2 (pre ++ [(px, py)]) x y =
      if x = px ∧ y = py then some (if m2 (px, py) then (s.n2 : Int) else -1) else nodeCell m2 pre x y := by
    intro x y
    rw [nodeCell_step m2 hn, inv.n2]
  by_cases h1 : m1 (px, py) = true
  · rw [if_pos h1]
    simp only
    rw [ea', ok_bind, ok_bind]
    unfold addNode2
    rw [hm2.rd hp.1 hp.2 rfl, ok_bind]
    by_cases h2 : m2 (px, py) = true
    · rw [if_pos h2]
      simp only
      rw [eb', ok_bind]
      refine ⟨_, rfl, ha'.congr ?_, hb'.congr ?_, ?_, ?_, ?_, ?_⟩
      · intro x _ y _
        rw [c1, if_pos h1]
        split <;> rfl
      · intro x _ y _
        rw [c2, if_pos h2]
        split <;> rfl
      · simp [h1, inv.v1]
      · simp [h2, inv.v2]
      · simp [h1, inv.n1]
      · simp [h2, inv.n2]
    · rw [if_neg h2]
      refine ⟨_, rfl, ha'.congr ?_, hb.congr ?_, ?_, ?_, ?_, ?_⟩
      · intro x _ y _
        rw [c1, if_pos h1]
        split <;> rfl
      · intro x _ y _
        rw [c2, if_neg h2]
      · simp [h1, inv.v1]
      · simp [h2, inv.v2]
      · simp [h1, inv.n1]
      · simp [h2, inv.n2]
  · rw [if_neg h1, ok_bind]
    unfold addNode2
    rw [hm2.rd hp.1 hp.2 rfl, ok_bind]
    by_cases h2 : m2 (px, py) = true
    · rw [if_pos h2]
      simp only
      rw [eb', ok_bind]
      refine ⟨_, rfl, ha.congr ?_, hb'.congr ?_, ?_, ?_, ?_, ?_⟩
      · intro x _ y _
        rw [c1, if_neg h1]
      · intro x _ y _
        rw [c2, if_pos h2]
        split <;> rfl
      · simp [h1, inv.v1]
      · simp [h2, inv.v2]
      · simp [h1, inv.n1]
      · simp [h2, inv.n2]
    · rw [if_neg h2]
      refine ⟨_, rfl, ha.congr ?_, hb.congr ?_, ?_, ?_, ?_, ?_⟩
      · intro x _ y _
        rw [c1, if_neg h1]
      · intro x _ y _
        rw [c2, if_neg h2]
      · simp [h1, inv.v1]
      · simp [h2, inv.v2]
      · simp [h1, inv.n1]
      · simp [h2, inv.n2]

/-- The node tables of the two maps. -/
structure NodesOf (h w : Nat) (md2 : ℚ) (b1 b2 : BMap) (s : NodeSt) : Prop where
  p1 : s.p1.Is w h fun x y => some (if matchable1 h w md2 b1 b2 (x, y) then ((nodes1 h w md2 b1 b2).idxOf (x, y) : Int) else -1)
  p2 : s.p2.Is w h fun x y => some (if matchable2 h w md2 b1 b2 (x, y) then ((nodes2 h w md2 b1 b2).idxOf (x, y) : Int) else -1)
  v1 : s.v1 = nodes1 h w md2 b1 b2
  v2 : s.v2 = nodes2 h w md2 b1 b2
  n1 : s.n1 = (nodes1 h w md2 b1 b2).length
  n2 : s.n2 = (nodes2 h w md2 b1 b2).length

/-- The two `matchable` arrays. -/
def MarksOf (h w : Nat) (md2 : ℚ) (b1 b2 : BMap) (m : Arr Bool × Arr Bool) : Prop :=
  m.1.Is w h (fun x y => some (matchable1 h w md2 b1 b2 (x, y))) ∧ m.2.Is w h (fun x y => some (matchable2 h w md2 b1 b2 (x, y)))

theorem nodes_ok {m : Arr Bool × Arr Bool} (hm : MarksOf h w md2 b1 b2 m) :
    ∃ s, nodes h w m = .ok s ∧ NodesOf h w md2 b1 b2 s := by
  unfold nodes
  rw [pixels_loop]
  obtain ⟨s, e, inv⟩ := foldlM_inv (f := fun s (p : Pix) => addNodes m p.1 p.2 s)
    (NodeInv h w (matchable1 h w md2 b1 b2) (matchable2 h w md2 b1 b2)) (pixels h w)
    (s := ⟨Arr.new _ w h, Arr.new _ w h, [], [], 0, 0⟩)
    ⟨(Arr.is_new _ w h).congr fun _ _ _ _ => by simp [nodeCell], (Arr.is_new _ w h).congr fun _ _ _ _ => by simp [nodeCell],
      rfl, rfl, rfl, rfl⟩ (by
      intro pre p post s hl inv
      have hp : p.1 < w ∧ p.2 < h := mem_pixels.1 (by rw [hl]; simp)
      have hn : p ∉ pre := by
        have := nodup_pixels h w
        rw [hl, List.nodup_append] at this
        intro hmem
        exact this.2.2 p hmem p (by simp) rfl
      exact addNodes_ok hm.1 hm.2 hp hn inv)
  refine ⟨s, e, inv.p1.congr ?_, inv.p2.congr ?_, inv.v1, inv.v2, inv.n1, inv.n2⟩
  · intro x hx y hy
    unfold nodeCell
    rw [if_pos (mem_pixels.2 ⟨hx, hy⟩)]
    rfl
  · intro x hx y hy
    unfold nodeCell
    rw [if_pos (mem_pixels.2 ⟨hx, hy⟩)]
    rfl

/-- The edges of one pixel. -/
def edgesOf (h w : Nat) (md2 : ℚ) (b1 b2 : BMap) (p : Pix) : List MEdge :=
  ((targets h w md2 p).filter (matchable2 h w md2 b1 b2)).map fun q =>
    ⟨(nodes1 h w md2 b1 b2).idxOf p, (nodes2 h w md2 b1 b2).idxOf q, pixDist2 p q⟩

theorem pixelEdges_ok (hoc : md2 < oc2) {m : Arr Bool × Arr Bool} (hm : MarksOf h w md2 b1 b2 m) {ns : NodeSt}
    (hns : NodesOf h w md2 b1 b2 ns) {p : Pix} (hp : p.1 < w ∧ p.2 < h) (es : List MEdge) :
    pixelEdges h w md2 oc2 m ns p.1 p.2 es =
      .ok (es ++ if matchable1 h w md2 b1 b2 p then edgesOf h w md2 b1 b2 p else []) := by
  unfold pixelEdges
  rw [hm.1.rd hp.1 hp.2 rfl, ok_bind]
  by_cases h1 : matchable1 h w md2 b1 b2 p = true
  · rw [if_pos h1, if_pos h1, window_loop (fun u v es => addEdge h w md2 oc2 m.2 ns p.1 p.2 u v es)]
    obtain ⟨s, e, inv⟩ := foldlM_inv (f := fun es (uv : Int × Int) => addEdge h w md2 oc2 m.2 ns p.1 p.2 uv.1 uv.2 es)
      (fun pre s => s = es ++ ((pre.filterMap fun uv => hit h w md2 p.1 p.2 uv.1 uv.2).filter (matchable2 h w md2 b1 b2)).map
        fun q => (⟨(nodes1 h w md2 b1 b2).idxOf p, (nodes2 h w md2 b1 b2).idxOf q, pixDist2 p q⟩ : MEdge))
      (window (ceilSqrt md2)) (s := es) (by simp) (by
        rintro pre ⟨u, v⟩ post s hl rfl
        simp only
        unfold addEdge
        cases eh : hit h w md2 p.1 p.2 u v with
        | none => exact ⟨_, rfl, by simp [List.filterMap_append, eh]⟩
        | some q =>
          obtain ⟨r1, r2, r3⟩ := hit_range eh
          simp only
          rw [hm.2.rd r1 r2 rfl, ok_bind]
          by_cases h2 : matchable2 h w md2 b1 b2 q = true
          · rw [if_pos h2]
            have i1 : (nodes1 h w md2 b1 b2).idxOf p < (nodes1 h w md2 b1 b2).length :=
              List.idxOf_lt_length_of_mem (List.mem_filter.2 ⟨mem_pixels.2 hp, h1⟩)
            have i2 : (nodes2 h w md2 b1 b2).idxOf q < (nodes2 h w md2 b1 b2).length :=
              List.idxOf_lt_length_of_mem (List.mem_filter.2 ⟨mem_pixels.2 ⟨r1, r2⟩, h2⟩)
            have q1 : ns.p1.rd p.1 p.2 = .ok (((nodes1 h w md2 b1 b2).idxOf p : Nat) : Int) :=
              hns.p1.rd hp.1 hp.2 (by rw [show ((p.1, p.2) : Pix) = p from rfl, if_pos h1])
            have q2 : ns.p2.rd q.1 q.2 = .ok (((nodes2 h w md2 b1 b2).idxOf q : Nat) : Int) :=
              hns.p2.rd r1 r2 (by rw [show ((q.1, q.2) : Pix) = q from rfl, if_pos h2])
            have hd : ((u * u + v * v : Int) : ℚ) < oc2 := by
              have hmem : q ∈ targets h w md2 p := by
                rw [targets_eq, List.mem_filterMap]
                exact ⟨(u, v), by rw [hl]; simp, eh⟩
              have := (mem_targets.1 hmem).2.2
              rw [← r3]
              push_cast
              exact lt_of_le_of_lt this hoc
            rw [q1, ok_bind, q2, ok_bind, need_ok (by rw [hns.n1]; omega), ok_bind, need_ok (by rw [hns.n2]; omega), ok_bind,
              need_ok hd, ok_bind]
            refine ⟨_, rfl, ?_⟩
            rw [← r3]
            simp [List.filterMap_append, eh, h2]
          · rw [if_neg h2]
            exact ⟨_, rfl, by simp [List.filterMap_append, eh, h2]⟩)
    rw [e, inv]
    rfl
  · rw [if_neg h1, if_neg h1, List.append_nil]

theorem edges_ok (hoc : md2 < oc2) {m : Arr Bool × Arr Bool} (hm : MarksOf h w md2 b1 b2 m) {ns : NodeSt}
    (hns : NodesOf h w md2 b1 b2 ns) : edges h w md2 oc2 m ns = .ok (realEdges h w md2 b1 b2) := by
  unfold edges
  rw [pixels_loop]
  obtain ⟨s, e, inv⟩ := foldlM_inv (f := fun es (p : Pix) => pixelEdges h w md2 oc2 m ns p.1 p.2 es)
    (fun pre s => s = (pre.filter (matchable1 h w md2 b1 b2)).flatMap (edgesOf h w md2 b1 b2)) (pixels h w) (s := []) rfl (by
      rintro pre p post s hl rfl
      have hp : p.1 < w ∧ p.2 < h := mem_pixels.1 (by rw [hl]; simp)
      refine ⟨_, pixelEdges_ok hoc hm hns hp _, ?_⟩
      rw [filter_snoc, List.flatMap_append]
      congr 1
      split <;> simp)
  rw [e, inv]
  rfl

end

end EdgeEval.MatchMem
